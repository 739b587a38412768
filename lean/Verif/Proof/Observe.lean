import Verif.Proof.Refine
import Verif.Spec.Observe
/-! # Observations of a represented state -/
namespace Shr

theorem getD_of_some {α : Type} {l : List α} {j : Nat} {x d : α} (h : l[j]? = some x) : l.getD j d = x := by
  simp [List.getD, h]

theorem Core.decode {r : Ring} {gq p0 : Nat} {P : List Msg} (h : Core r gq p0 P) :
    r.msgsFrom (gq % r.mm) P.length = P := by
  unfold Ring.msgsFrom
  apply List.ext_getElem?
  intro j
  rw [List.getElem?_map]
  rcases Nat.lt_or_ge j P.length with hj | hj
  · obtain ⟨b, hb⟩ : ∃ b, P[j]? = some b := ⟨P[j], List.getElem?_eq_getElem hj⟩
    rw [List.getElem?_range hj, hb, Option.map_some]
    congr 1
    rw [mod_add_mod_left, getD_of_some (h.slots j b hb)]
    unfold Ring.msgAt
    apply List.ext_getElem?
    intro t
    rw [List.getElem?_map]
    dsimp only
    rcases Nat.lt_or_ge t b.length with ht | ht
    · obtain ⟨x, hx⟩ : ∃ x, b[t]? = some x := ⟨b[t], List.getElem?_eq_getElem ht⟩
      rw [List.getElem?_range ht, hx, Option.map_some, getD_of_some (h.msg_data hb t x hx)]
    · rw [List.getElem?_eq_none (by simpa using ht), List.getElem?_eq_none ht]; rfl
  · rw [List.getElem?_eq_none (by simpa using hj), List.getElem?_eq_none hj]; rfl

theorem CView.unreadMsgs {r : Ring} {gr : Nat} {U : List Msg} (h : CView r gr U) : r.unreadMsgs = U := by
  obtain ⟨p0, hC⟩ := h.core
  unfold Ring.unreadMsgs
  rw [h.m, h.r]
  exact hC.decode

/-- Ring memory holds exactly the unread messages of the specification. -/
theorem RingRel.unreadMsgs {r : Ring} {sp : Spec} (h : RingRel r sp) : r.unreadMsgs = sp.unread :=
  h.cview.unreadMsgs

theorem RingRel.presentMsgs {r : Ring} {sp : Spec} (h : RingRel r sp) : r.presentMsgs = sp.retained := by
  obtain ⟨p0, hg⟩ := h.rep.geo
  unfold Ring.presentMsgs
  rw [h.rep.mp, h.rep.e]
  exact hg.toCore.decode

theorem cacheRead_eq : ∀ (l : List (Nat × Nat)) (buf : List Byte) (P : List Msg), cacheRead buf l = .ok P →
    l.map (fun e => (buf.drop e.1).take e.2) = P := by
  intro l
  induction l with
  | nil => intro buf P h; simp [cacheRead] at h; simp [h]
  | cons e t ih =>
    intro buf P h
    obtain ⟨o, ln⟩ := e
    unfold cacheRead memRead at h
    by_cases hc : o + ln ≤ buf.length
    · rw [if_pos hc] at h
      simp only [bind, Except.bind] at h
      cases hr : cacheRead buf t with
      | error f => rw [hr] at h; simp at h
      | ok bs =>
        rw [hr] at h
        simp at h
        rw [List.map_cons, ih buf bs hr, ← h]
    · rw [if_neg hc] at h; simp [bind, Except.bind] at h

/-- The cache holds exactly the pending messages of the specification. -/
theorem CRel.msgs {c : Cache} {pend : List Msg} {csz cvt : Nat} (h : CRel c pend csz cvt) : c.msgs = pend :=
  cacheRead_eq _ _ _ h.read

/-- The slices of a buffer described by a layout are the messages. -/
theorem slices_layout : ∀ (V : List Msg) (buf : List Byte) (off : Nat), off + bytesOf V ≤ buf.length →
    (layout off V).map (sliceOf (put buf off V.flatten)) = V := by
  intro V
  induction V with
  | nil => intro buf off _; rfl
  | cons b bs ih =>
    intro buf off h
    simp at h
    unfold layout
    rw [List.map_cons]
    congr 1
    · unfold sliceOf put
      dsimp only
      rw [List.append_assoc, List.drop_append_of_le_length (by simp; omega)]
      simp
    · have e : put buf off (b :: bs).flatten = put (put buf off b) (off + b.length) bs.flatten := by
        rw [put_put (by rw [flatten_length]; omega)]; rfl
      rw [e]
      exact ih _ _ (by rw [put_length (by omega)]; omega)

/-! ## Bound on the number of messages ever put into the ring -/

theorem tryWrite_log_le (sp : Spec) (who : Nat) (nb : Bool) (new : List Msg) (env : Env) :
    (sp.tryWrite who nb new env).1.log.length ≤ sp.log.length + new.length := by
  unfold Spec.tryWrite
  repeat' split
  all_goals simp

/-- All caches together with bound `O`. -/
def PendLe (sp : Spec) (O : Nat) : Prop := ∀ k sh, sp.hs k = .live sh → sh.pend.length ≤ O

theorem pendLe_upd {sp sp' : Spec} {O O' : Nat} (h : PendLe sp O) (hO : O ≤ O') {k : Nat} {l : Life SHandle (List Msg)}
    (he : sp'.hs = upd sp.hs k l) (hl : ∀ sh, l = .live sh → sh.pend.length ≤ O') : PendLe sp' O' := by
  intro j sh hj
  rw [he] at hj
  unfold upd at hj
  by_cases e : j = k
  · rw [if_pos e] at hj; exact hl sh hj
  · rw [if_neg e] at hj; exact Nat.le_trans (h j sh hj) hO

theorem flush_count (sp : Spec) (k : Nat) (sh : SHandle) (wait : Bool) (env : Env) :
    (sp.flush k sh wait env).1.log.length ≤ sp.log.length + sh.pend.length ∧
    (sp.flush k sh wait env).2.1.pend.length ≤ sh.pend.length := by
  unfold Spec.flush
  split
  · simp
  · dsimp only
    split
    · simp
    · refine ⟨tryWrite_log_le _ _ _ _ _, ?_⟩
      dsimp only
      split
      · split <;> simp
      · simp

theorem writev_count (sp : Spec) (k : Nat) (sh : SHandle) (iov : List Msg) (envF env : Env) :
    (sp.writev k sh iov envF env).1.log.length ≤ sp.log.length + sh.pend.length + iov.length ∧
    (sp.writev k sh iov envF env).2.1.pend.length ≤ sh.pend.length + iov.length := by
  unfold Spec.writev
  dsimp only
  have t1 := tryWrite_log_le sp k (sh.flags.has SHR_NONBLOCK) iov env
  have t2 := tryWrite_log_le sp k (sh.flags.has SHR_NONBLOCK) sh.pend envF
  have t3 := tryWrite_log_le (sp.tryWrite k (sh.flags.has SHR_NONBLOCK) sh.pend envF).1 k (sh.flags.has SHR_NONBLOCK) iov env
  repeat' split
  all_goals (constructor <;> simp <;> omega)

theorem step_count {sp : Spec} {O : Nat} (h : PendLe sp O) (op : Op) :
    (sp.step op).1.log.length ≤ sp.log.length + O + offered [op] ∧ PendLe (sp.step op).1 (O + offered [op]) := by
  have triv : sp.log.length ≤ sp.log.length + O + offered [op] := by omega
  have same : PendLe sp (O + offered [op]) := fun k sh hk => by have := h k sh hk; omega
  cases op <;> unfold Spec.step <;> dsimp only
  · rename_i k flags env
    split
    · split
      · exact ⟨triv, same⟩
      · split
        · exact ⟨triv, same⟩
        · rename_i sh heq
          refine ⟨triv, pendLe_upd h (by omega) rfl ?_⟩
          intro sh' e
          cases e
          unfold Spec.openH at heq
          dsimp only at heq
          split at heq
          · simp at heq
          · cases heq; simp
    · exact ⟨triv, same⟩
  · rename_i k iov envF env
    split
    · rename_i sh hk
      have hp := h k sh hk
      have hc := writev_count sp k sh iov envF env
      split
      · exact ⟨triv, same⟩
      · have e : offered [Op.writev k iov envF env] = iov.length := rfl
        rw [e]
        refine ⟨Nat.le_trans hc.1 (by omega), pendLe_upd h (by omega) rfl ?_⟩
        intro sh' e; cases e
        have := hc.2; omega
    · exact ⟨triv, same⟩
  · rename_i k buf niov env
    split
    · rename_i sh hk
      have hp := h k sh hk
      split
      · exact ⟨triv, same⟩
      · refine ⟨?_, pendLe_upd h (by omega) rfl ?_⟩
        · have : (sp.readv sh buf niov env).1.tlog = sp.tlog := by
            unfold Spec.readv; dsimp only; repeat' split
            all_goals rfl
          show ((sp.readv sh buf niov env).1.tlog.map Prod.snd).length ≤ _
          rw [this]; exact triv
        · intro sh' e; cases e
          have : (sp.readv sh buf niov env).2.1.pend = sh.pend := by
            unfold Spec.readv Spec.catchUp; dsimp only; repeat' split
            all_goals rfl
          rw [this]; omega
    · exact ⟨triv, same⟩
  · rename_i k wait env
    split
    · rename_i sh hk
      have hp := h k sh hk
      have hc := flush_count sp k sh wait env
      split
      · exact ⟨triv, same⟩
      · refine ⟨Nat.le_trans hc.1 (by omega), pendLe_upd h (by omega) rfl ?_⟩
        intro sh' e; cases e
        have := hc.2; omega
    · exact ⟨triv, same⟩
  · rename_i k env
    split
    · rename_i sh hk
      have hp := h k sh hk
      have hc := flush_count sp k sh false env
      have hhs := flush_hs sp k sh false env
      split
      · refine ⟨Nat.le_trans hc.1 (by omega), ?_⟩
        intro j sh' hj; dsimp only at hj; rw [hhs] at hj; have := h j sh' hj; omega
      · refine ⟨Nat.le_trans hc.1 (by omega), pendLe_upd h (by omega) rfl ?_⟩
        intro sh' e; cases e
    · exact ⟨triv, same⟩
  · split
    · split
      · exact ⟨triv, same⟩
      · dsimp only; split <;> exact ⟨triv, same⟩
    · exact ⟨triv, same⟩
  · rename_i k reset
    split
    · rename_i sh hk
      have hp := h k sh hk
      split
      · exact ⟨triv, same⟩
      · refine ⟨triv, pendLe_upd h (by omega) rfl ?_⟩
        intro sh' e; cases e
        split
        · dsimp only; omega
        · omega
    · exact ⟨triv, same⟩
  · split
    · unfold Spec.appdata
      dsimp only
      repeat' split
      all_goals exact ⟨triv, same⟩
    · exact ⟨triv, same⟩

theorem offered_cons (op : Op) (ops : List Op) : offered (op :: ops) = offered [op] + offered ops := by
  cases op <;> simp [offered]

theorem run_count : ∀ (ops : List Op) {sp : Spec} {O : Nat}, PendLe sp O →
    (sp.run ops).1.log.length ≤ sp.log.length + ops.length * (O + offered ops) := by
  intro ops
  induction ops with
  | nil => intro sp O _; simp [Spec.run]
  | cons op ops ih =>
    intro sp O h
    obtain ⟨h1, h2⟩ := step_count h op
    have h3 := ih h2
    show ((sp.step op).1.run ops).1.log.length ≤ _
    rw [offered_cons]
    have e : O + offered [op] + offered ops = O + (offered [op] + offered ops) := by omega
    rw [e] at h3
    simp only [List.length_cons, Nat.add_mul, Nat.one_mul]
    omega

/-! ## Valid histories -/

/-- The premises of the history theorems: creation parameters do not overflow, every call is well
formed, and on a farm ring fewer than 2^64 messages are ever written (bounded by calls times
messages). -/
structure Valid (a : InitArgs) (ops : List Op) : Prop where
  init : a.WF
  wf : ∀ op ∈ ops, op.WF a.appsize
  count : a.flags.has SHR_FARM = true → ops.length * offered ops < W

theorem Valid.reach {a : InitArgs} {ops : List Op} (v : Valid a ops) :
    ∃ s, (Sys.init a).run ops = .ok (s, ((Spec.init a).run ops).2) ∧ Rel s ((Spec.init a).run ops).1 := by
  apply refinement a v.init ops v.wf
  intro hf
  have h0 : PendLe (Spec.init a) 0 := by intro k sh h; cases h
  have := run_count ops h0
  have h1 : (Spec.init a).log.length = 0 := rfl
  rw [h1, Nat.zero_add, Nat.zero_add] at this
  have := v.count hf
  omega

theorem run_append : ∀ (xs ys : List Op) (sp : Spec),
    sp.run (xs ++ ys) = (((sp.run xs).1.run ys).1, (sp.run xs).2 ++ ((sp.run xs).1.run ys).2) := by
  intro xs
  induction xs with
  | nil => intro ys sp; rfl
  | cons x xs ih => intro ys sp; simp [Spec.run, ih]

theorem sys_run_append : ∀ (xs ys : List Op) (s : Sys), s.run (xs ++ ys) =
    match s.run xs with
    | .error f => .error f
    | .ok (s', os) => match s'.run ys with
      | .error f => .error f
      | .ok (s'', os') => .ok (s'', os ++ os') := by
  intro xs
  induction xs with
  | nil =>
    intro ys s
    simp only [List.nil_append, Sys.run]
    cases s.run ys with
    | error f => rfl
    | ok p => obtain ⟨s', os⟩ := p; rfl
  | cons x xs ih =>
    intro ys s
    simp only [List.cons_append, Sys.run]
    cases s.step x with
    | error f => rfl
    | ok p =>
      obtain ⟨s1, o⟩ := p
      dsimp only
      rw [ih]
      cases s1.run xs with
      | error f => rfl
      | ok q =>
        obtain ⟨s2, os⟩ := q
        dsimp only
        cases s2.run ys with
        | error f => rfl
        | ok z => obtain ⟨s3, os'⟩ := z; rfl

theorem offered_append (xs ys : List Op) : offered (xs ++ ys) = offered xs + offered ys := by
  induction xs with
  | nil => simp [offered]
  | cons x xs ih => rw [List.cons_append, offered_cons, ih, offered_cons x xs]; omega

theorem Valid.left {a : InitArgs} {xs ys : List Op} (v : Valid a (xs ++ ys)) : Valid a xs where
  init := v.init
  wf := fun op h => v.wf op (by simp [h])
  count := fun hf => by
    refine Nat.lt_of_le_of_lt (Nat.mul_le_mul ?_ ?_) (v.count hf)
    · simp
    · rw [offered_append]; omega

/-- A state in which a ring can be found, with the specification state it represents. -/
theorem Valid.last {a : InitArgs} {ops : List Op} {op : Op} (v : Valid a (ops ++ [op])) {s s' : Sys}
    {outs : List Out} {o : Out} (h1 : (Sys.init a).run ops = .ok (s, outs)) (h2 : s.step op = .ok (s', o)) :
    ∃ sp : Spec, Rel s sp ∧ Rel s' (sp.step op).1 ∧ o = (sp.step op).2 ∧ op.WF sp.app.length ∧
      sp = ((Spec.init a).run ops).1 := by
  obtain ⟨s1, e1, r1⟩ := v.left.reach
  obtain ⟨s2, e2, r2⟩ := v.reach
  rw [h1] at e1; cases e1
  rw [sys_run_append, h1] at e2
  dsimp only [Sys.run] at e2
  rw [h2] at e2
  simp only [run_append, Spec.run] at e2 r2
  injection e2 with e2
  injection e2 with e2 e3
  subst e2
  refine ⟨_, r1, r2, ?_, ?_, rfl⟩
  · have := List.append_cancel_left e3
    simpa using this
  · have hl : ∀ (ops : List Op) (sp : Spec), (∀ op ∈ ops, op.WF sp.app.length) → (sp.run ops).1.app.length = sp.app.length := by
      intro ops
      induction ops with
      | nil => intro sp _; rfl
      | cons x xs ih =>
        intro sp hw
        have hx := step_app_length x (hw x (by simp))
        show ((sp.step x).1.run xs).1.app.length = _
        rw [ih _ (by rw [hx]; exact fun o ho => hw o (by simp [ho])), hx]
    have e : (Spec.init a).app.length = a.appsize := by
      show (if a.flags.has SHR_APPDATA_1 then a.app else []).length = a.appsize
      unfold InitArgs.appsize; split <;> rfl
    rw [hl _ _ (by rw [e]; exact v.left.wf), e]
    exact v.wf op (by simp)

end Shr
