import Verif.Props.Total
/-! # C92, C93: batches are sequences of single calls; the library never looks at the bytes -/
namespace Shr

/-- A history that goes on after `xs` behaves like the reference queue that goes on after `xs`. -/
theorem Valid.conts {a : InitArgs} {xs ys : List Op} (v : Valid a (xs ++ ys)) {s : Sys} {o : List Out} (h : (Sys.init a).run xs = .ok (s, o)) :
    ∃ s', s.run ys = .ok (s', (((Spec.init a).run xs).1.run ys).2) := by
  obtain ⟨s1, e1, _⟩ := v.reach
  obtain ⟨s2, e2, _⟩ := v.left.reach
  rw [h] at e2; cases e2
  rw [sys_run_append, h, run_append] at e1
  dsimp only at e1
  cases hy : s.run ys with
  | error f => rw [hy] at e1; cases e1
  | ok p =>
    rw [hy] at e1
    simp only [Except.ok.injEq, Prod.mk.injEq, List.append_cancel_left_eq] at e1
    exact ⟨p.1, by rw [← e1.2]⟩

/-! ## C92 -/

theorem fits_append {cap maxm : Nat} (U x y : List Msg) : Fits cap maxm U (x ++ y) ↔ Fits cap maxm (U ++ x) y := by
  simp only [Fits, bytesOf_append, List.length_append, Nat.add_assoc]

theorem fits_prefix {cap maxm : Nat} {U x y : List Msg} (h : Fits cap maxm U (x ++ y)) : Fits cap maxm U x := by
  simp only [Fits, bytesOf_append, List.length_append] at h ⊢
  omega

theorem fits_tail {cap maxm : Nat} {m : Msg} {U x : List Msg} (h : Fits cap maxm (m :: U) x) : Fits cap maxm U x := by
  simp only [Fits, bytesOf_cons, List.length_cons] at h ⊢
  omega

theorem evict_zero {cap maxm : Nat} {U x : List Msg} (h : Fits cap maxm U x) : evictCount cap maxm x U = 0 :=
  Nat.le_zero.1 (evictCount_le_of_fits (j := 0) h)

/-- Making room for `x` and then for `y` discards what making room for both discards. -/
theorem evictCount_append {cap maxm : Nat} {x y : List Msg} (hf : Fits cap maxm [] (x ++ y)) (U : List Msg) :
    evictCount cap maxm (x ++ y) U = evictCount cap maxm x U + evictCount cap maxm y (U.drop (evictCount cap maxm x U) ++ x) := by
  induction U with
  | nil =>
    rw [evict_zero hf, evict_zero (fits_prefix hf)]
    rw [List.drop_nil, evict_zero ((fits_append [] x y).1 hf)]
  | cons m ms ih =>
    by_cases h1 : Fits cap maxm (m :: ms) x
    · rw [evict_zero h1]
      rw [evict_zero (fits_tail h1)] at ih
      simp only [List.drop_zero, Nat.zero_add] at ih ⊢
      rw [List.cons_append, evictCount, evictCount, ih]
      simp only [fits_append, List.cons_append]
    · have h2 : ¬ Fits cap maxm (m :: ms) (x ++ y) := fun h => h1 (fits_prefix h)
      rw [evictCount, evictCount, if_neg h1, if_neg h2, ih]
      simp only [List.drop_succ_cons]
      omega

theorem bytesOf_nil' : bytesOf [] = 0 := rfl

/-- Committing a batch is committing its parts. -/
theorem commit_append {sp : Spec} {x y : List Msg} (hb : sp.base ≤ sp.log.length) (hfi : sp.first ≤ sp.log.length) (hf : Fits sp.cap sp.maxm [] (x ++ y)) (who : Nat) (c : Bool) :
    sp.commit who (x ++ y) c = (sp.commit who x c).commit who y c := by
  have hu := commit_unread sp who x c hfi
  have hr := commit_retained sp who x c hb
  have e1 := evictCount_append hf sp.unread
  have e2 := evictCount_append hf sp.retained
  have hcap : (sp.commit who x c).cap = sp.cap := rfl
  have hmax : (sp.commit who x c).maxm = sp.maxm := rfl
  have l1 := evictCount_le_length sp.cap sp.maxm x sp.unread
  rw [Spec.commit]
  conv => rhs; rw [Spec.commit, hu, hr, hcap, hmax]
  rw [e1, e2]
  have hby : bytesOf (sp.unread.take (evictCount sp.cap sp.maxm x sp.unread + evictCount sp.cap sp.maxm y (sp.unread.drop (evictCount sp.cap sp.maxm x sp.unread) ++ x))) =
      bytesOf (sp.unread.take (evictCount sp.cap sp.maxm x sp.unread)) +
      bytesOf ((sp.unread.drop (evictCount sp.cap sp.maxm x sp.unread) ++ x).take (evictCount sp.cap sp.maxm y (sp.unread.drop (evictCount sp.cap sp.maxm x sp.unread) ++ x))) := by
    rw [List.take_add, bytesOf_append]
    congr 2
    rw [List.take_append_of_le_length]
    have : Fits sp.cap sp.maxm ((sp.unread.drop (evictCount sp.cap sp.maxm x sp.unread) ++ x).drop (sp.unread.drop (evictCount sp.cap sp.maxm x sp.unread)).length) y := by
      rw [List.drop_left]; exact (fits_append [] x y).1 hf
    exact evictCount_le_of_fits this
  rw [hby]
  cases c <;> simp [Spec.commit, bytesOf_append, Nat.add_assoc]

theorem commit_le {sp : Spec} {x : List Msg} (hb : sp.base ≤ sp.log.length) (hfi : sp.first ≤ sp.log.length) (who : Nat) (c : Bool) :
    (sp.commit who x c).base ≤ (sp.commit who x c).log.length ∧ (sp.commit who x c).first ≤ (sp.commit who x c).log.length := by
  have l1 := evictCount_le_length sp.cap sp.maxm x sp.unread
  have l2 := evictCount_le_length sp.cap sp.maxm x sp.retained
  rw [commit_log]
  simp only [Spec.unread, Spec.retained, List.length_drop, List.length_append] at l1 l2 ⊢
  simp only [Spec.commit, Spec.unread, Spec.retained]
  omega

section
variable {sp : Spec} {k : Nat} {sh : SHandle} {envF env : Env}

/-- An unbuffered write of the reference queue that returns a positive number. -/
theorem spec_write_pos {iov : List Msg} (hk : sp.hs k = .live sh) (hw : sh.flags.has SHR_WRONLY = true) (hub : sh.flags.has SHR_BUFFERED = false)
    {rc : Int} (ho : (sp.step (.writev k iov envF env)).2 = .wrote rc) (hrc : 0 < rc) :
    Legal sp.cap sp.maxm iov ∧ env.lockOk = true ∧ env.wakeOk = true ∧ (sp.gflags.has SHR_SYNC = true → env.syncOk = true) ∧
    (Fits sp.cap sp.maxm sp.unread iov ∨ sp.drop = true) := by
  rw [step_writev_eq hk hw] at ho
  unfold Spec.writev at ho
  by_cases hl : Legal sp.cap sp.maxm iov
  · refine ⟨hl, ?_⟩
    rw [if_neg (by simpa using hl), if_pos hub] at ho
    unfold Spec.tryWrite at ho
    dsimp only at ho
    by_cases h1 : env.lockOk = false
    · rw [if_pos h1] at ho; cases ho; omega
    · rw [if_neg h1] at ho
      refine ⟨by simpa using h1, ?_⟩
      by_cases h2 : Fits sp.cap sp.maxm sp.unread iov ∨ sp.drop = true
      · rw [if_pos h2] at ho
        dsimp only at ho
        by_cases h3 : env.wakeOk = false
        · rw [if_pos h3] at ho; cases ho; omega
        · rw [if_neg h3] at ho
          refine ⟨by simpa using h3, ?_, h2⟩
          by_cases h4 : sp.gflags.has SHR_SYNC = true ∧ env.syncOk = false
          · rw [if_pos h4] at ho; cases ho; omega
          · intro h5
            cases h6 : env.syncOk
            · exact absurd ⟨h5, h6⟩ h4
            · rfl
      · rw [if_neg h2] at ho
        cases h7 : sh.flags.has SHR_NONBLOCK
        · rw [h7] at ho
          simp only [Bool.false_eq_true, if_false] at ho
          cases h8 : env.waitRc with
          | none => rw [h8] at ho; cases ho
          | some e => rw [h8] at ho; cases ho; cases e <;> simp [WaitErr.rc] at hrc
        · rw [h7] at ho; cases ho; omega
  · rw [if_pos (by simpa using hl)] at ho; cases ho; omega

theorem spec_write_ok {iov : List Msg} (hk : sp.hs k = .live sh) (hw : sh.flags.has SHR_WRONLY = true) (hub : sh.flags.has SHR_BUFFERED = false)
    (hl : Legal sp.cap sp.maxm iov) (h1 : env.lockOk = true) (h2 : env.wakeOk = true) (h3 : sp.gflags.has SHR_SYNC = true → env.syncOk = true)
    (h4 : Fits sp.cap sp.maxm sp.unread iov ∨ sp.drop = true) :
    sp.step (.writev k iov envF env) = (sp.commit k iov true, .wrote (bytesOf iov)) := by
  rw [step_writev_eq hk hw]
  unfold Spec.writev
  rw [if_neg (by simpa using hl), if_pos hub]
  unfold Spec.tryWrite
  dsimp only
  rw [if_neg (by simp [h1]), if_pos h4]
  dsimp only
  rw [if_neg (by simp [h2]), if_neg (by rintro ⟨h5, h6⟩; rw [h3 h5] at h6; cases h6), h2]
  rw [upd_idem hk]
  rfl

/-- One by one, the messages of a batch are written as the batch is. -/
theorem spec_writes (iov : List Msg) : ∀ {sp : Spec}, sp.hs k = .live sh → sh.flags.has SHR_WRONLY = true → sh.flags.has SHR_BUFFERED = false →
    sp.base ≤ sp.log.length → sp.first ≤ sp.log.length →
    Legal sp.cap sp.maxm iov → env.lockOk = true → env.wakeOk = true → (sp.gflags.has SHR_SYNC = true → env.syncOk = true) →
    (Fits sp.cap sp.maxm sp.unread iov ∨ sp.drop = true) →
    sp.run (iov.map (fun m => .writev k [m] envF env)) = (sp.commit k iov true, iov.map (fun m => .wrote m.length)) := by
  induction iov with
  | nil => intro sp _ _ _ _ _ hl; exact absurd rfl hl.1
  | cons m ms ih =>
    intro sp hk hw hub hb hfi hl h1 h2 h3 h4
    obtain ⟨_, hne, hcb, hcm⟩ := hl
    simp only [bytesOf_cons, List.length_cons] at hcb hcm
    have hl1 : Legal sp.cap sp.maxm [m] := ⟨by simp, by intro b hb; exact hne b (by simp at hb; simp [hb]), by simp [bytesOf]; omega, by simp; omega⟩
    have h41 : Fits sp.cap sp.maxm sp.unread [m] ∨ sp.drop = true := h4.imp_left (fun h => fits_prefix (x := [m]) (y := ms) h)
    have e := spec_write_ok (envF := envF) hk hw hub hl1 h1 h2 h3 h41
    have hby : bytesOf [m] = m.length := by simp [bytesOf]
    rw [hby] at e
    simp only [List.map_cons, Spec.run, e]
    by_cases hms : ms = []
    · subst hms; rfl
    · have hf0 : Fits sp.cap sp.maxm [] ([m] ++ ms) := by
        simp only [Fits, bytesOf_append, hby, bytesOf_nil', List.length_append, List.length_cons, List.length_nil]; omega
      obtain ⟨g1, g2⟩ := commit_le (x := [m]) hb hfi k true
      have h42 : Fits sp.cap sp.maxm (sp.commit k [m] true).unread ms ∨ sp.drop = true := by
        rcases h4 with h | h
        · left
          rw [commit_unread _ _ _ _ hfi, evict_zero (fits_prefix (x := [m]) (y := ms) h), List.drop_zero, ← fits_append]
          exact h
        · exact .inr h
      have := ih (sp := sp.commit k [m] true) hk hw hub g1 g2
        ⟨hms, fun b hb => hne b (by simp [hb]), show bytesOf ms ≤ sp.cap by omega, show ms.length ≤ sp.maxm by omega⟩ h1 h2 h3 h42
      rw [this, ← commit_append hb hfi hf0]
      rfl
end

/-- **C92.** A batch that was written is, for everybody, now and later, the same as its messages written one by one: these writes succeed as well, and whatever
is done afterwards gives the same results. -/
theorem C92_write {a : InitArgs} {pre post : List Op} {k : Nat} {iov : List Msg} {envF env : Env} {s s1 : Sys} {outs : List Out} {h : Handle} {rc : Int}
    (v1 : Valid a (pre ++ (.writev k iov envF env :: post))) (v2 : Valid a (pre ++ (iov.map (fun m => .writev k [m] envF env) ++ post)))
    (hrun : (Sys.init a).run pre = .ok (s, outs)) (hk : s.hs k = .live h) (hub : h.flags.has SHR_BUFFERED = false)
    (hstep : s.step (.writev k iov envF env) = .ok (s1, .wrote rc)) (hrc : 0 < rc) :
    rc = bytesOf iov ∧
    ∃ s2, s.run (iov.map (fun m => .writev k [m] envF env)) = .ok (s2, iov.map (fun m => .wrote m.length)) ∧
    ∃ o s1' s2', s1.run post = .ok (s1', o) ∧ s2.run post = .ok (s2', o) := by
  obtain ⟨sp, x, esp, _⟩ := v1.left.state hrun
  obtain ⟨sh, hsk, hh⟩ := x.rel.live hk
  rw [hh.flags] at hub
  have vone : Valid a (pre ++ [.writev k iov envF env]) := by
    have : pre ++ (.writev k iov envF env :: post) = (pre ++ [.writev k iov envF env]) ++ post := by simp
    rw [this] at v1; exact v1.left
  obtain ⟨s1a, e1⟩ := vone.conts hrun
  obtain ⟨t1, e2⟩ := v1.conts hrun
  obtain ⟨t2, e3⟩ := v2.conts hrun
  have vall : Valid a (pre ++ iov.map (fun m => .writev k [m] envF env)) := by
    rw [← List.append_assoc] at v2; exact v2.left
  obtain ⟨s2a, e4⟩ := vall.conts hrun
  rw [← esp] at e1 e2 e3 e4
  have ho : (sp.step (.writev k iov envF env)).2 = .wrote rc := by
    simp only [Sys.run, hstep, Spec.run, Except.ok.injEq, Prod.mk.injEq, List.cons.injEq] at e1
    exact e1.2.1.symm
  have hw : sh.flags.has SHR_WRONLY = true := by
    cases hw : sh.flags.has SHR_WRONLY
    · exfalso
      unfold Spec.step at ho
      simp only [hsk, hw] at ho
      cases ho
    · rfl
  obtain ⟨g1, g2, g3, g4, g5⟩ := spec_write_pos hsk hw hub ho hrc
  have hfi := x.rel.ring.fle
  have hb : sp.base ≤ sp.log.length := by have := x.rel.ring.ble; omega
  have eb := spec_write_ok (envF := envF) hsk hw hub g1 g2 g3 g4 g5
  have es := spec_writes (envF := envF) iov hsk hw hub hb hfi g1 g2 g3 g4 g5
  rw [eb] at ho
  refine ⟨by cases ho; rfl, s2a, by rw [e4, es], ?_⟩
  rw [sys_run_append, e4, run_append, es] at e3
  dsimp only at e3
  simp only [Sys.run, hstep, Spec.run, eb] at e2
  cases r1 : s1.run post with
  | error f => rw [r1] at e2; cases e2
  | ok p1 =>
    rw [r1] at e2
    cases r2 : s2a.run post with
    | error f => rw [r2] at e3; cases e3
    | ok p2 =>
      rw [r2] at e3
      simp only [Except.ok.injEq, Prod.mk.injEq, List.append_cancel_left_eq, List.cons.injEq] at e2 e3
      exact ⟨p1.2, p1.1, p2.1, rfl, by rw [e2.2.2, ← e3.2]⟩

/-- The reference queue after handle `k` has read the messages `V`. -/
def gotBy (sp : Spec) (k : Nat) (sh : SHandle) (V : List Msg) : Spec :=
  { sp with
    first := if sp.farm then sp.first else sp.first + V.length
    st := { sp.st with br := sp.st.br + bytesOf V, mr := sp.st.mr + V.length }
    hs := upd sp.hs k (.live (if sp.farm then { sp.catchUp sh with pos := (sp.catchUp sh).pos + V.length } else sp.catchUp sh)) }

section
variable {sp : Spec} {k : Nat} {sh : SHandle} {env : Env} {buf : List Byte} {niov : Nat}

theorem spec_read_eq (hk : sp.hs k = .live sh) (hr : sh.flags.has SHR_RDONLY = true) (hb : buf ≠ []) (hn : niov ≠ 0) (hl : env.lockOk = true)
    (hne : sp.readable sh ≠ []) :
    let V := (sp.readable sh).take (takeCount (sp.readable sh) (min buf.length SSIZE_MAX) niov)
    sp.step (.readv k buf niov env) = (gotBy sp k sh V, .read (if V = [] then -2 else (bytesOf V : Int)) (layout 0 V) (put buf 0 V.flatten)) := by
  have hb' : buf.length ≠ 0 := by simpa using hb
  have ht := takeCount_le_length (sp.readable sh) (min buf.length SSIZE_MAX) niov
  have hlen : ((sp.readable sh).take (takeCount (sp.readable sh) (min buf.length SSIZE_MAX) niov)).length =
      takeCount (sp.readable sh) (min buf.length SSIZE_MAX) niov := by simp; omega
  have hnil : (sp.readable sh).take (takeCount (sp.readable sh) (min buf.length SSIZE_MAX) niov) = [] ↔ takeCount (sp.readable sh) (min buf.length SSIZE_MAX) niov = 0 := by
    rw [← List.length_eq_zero_iff, hlen]
  dsimp only
  rw [step_readv_eq hk hr]
  unfold Spec.readv gotBy
  rw [if_neg (by simp [hb', hn, hl])]
  dsimp only
  rw [if_neg hne]
  dsimp only
  rw [hlen]
  simp only [hnil]

theorem readable_after {V rest : List Msg} (hr : sp.readable sh = V ++ rest) {sh' : SHandle} (hk : (gotBy sp k sh V).hs k = .live sh') :
    (gotBy sp k sh V).readable sh' = rest := by
  simp only [gotBy, upd_same, Life.live.injEq] at hk
  cases hf : sp.farm
  · simp only [hf, Bool.false_eq_true, if_false] at hk
    have h1 : (gotBy sp k sh V).farm = false := hf
    unfold Spec.readable at hr ⊢
    rw [if_neg (by simp [hf])] at hr
    rw [if_neg (by simp [h1])]
    unfold Spec.unread at hr ⊢
    have h2 : (gotBy sp k sh V).log = sp.log := rfl
    have h3 : (gotBy sp k sh V).first = sp.first + V.length := by simp [gotBy, hf]
    rw [h2, h3, ← List.drop_drop, hr, List.drop_left]
  · simp only [hf, if_true] at hk
    have h1 : (gotBy sp k sh V).farm = true := hf
    unfold Spec.readable at hr ⊢
    rw [if_pos hf] at hr
    rw [if_pos h1]
    have h2 : (gotBy sp k sh V).log = sp.log := rfl
    have h3 : (gotBy sp k sh V).base = sp.base := rfl
    have h4 : sh'.pos = max sh.pos sp.base + V.length := by rw [← hk]; simp [Spec.catchUp, hf]
    rw [h2, h3, h4, Nat.max_eq_left (by omega), ← List.drop_drop, hr, List.drop_left]

theorem gotBy_append {V V' : List Msg} {sh' : SHandle} (hk : (gotBy sp k sh V).hs k = .live sh') :
    gotBy (gotBy sp k sh V) k sh' V' = gotBy sp k sh (V ++ V') := by
  simp only [gotBy, upd_same, Life.live.injEq] at hk
  have hu : ∀ (f : Nat → Life SHandle (List Msg)) (x y : Life SHandle (List Msg)), upd (upd f k x) k y = upd f k y := by
    intro f x y; funext j; unfold upd; split <;> rfl
  cases hf : sp.farm
  · simp only [hf, Bool.false_eq_true, if_false] at hk
    subst hk
    have h1 : (gotBy sp k sh V).farm = false := hf
    have h2 : (gotBy sp k sh V).catchUp (sp.catchUp sh) = sp.catchUp sh := by unfold Spec.catchUp; rw [if_neg (by simp [h1])]
    rw [gotBy, h1, h2]
    simp only [gotBy, hf, hu, Bool.false_eq_true, if_false, bytesOf_append, List.length_append, Nat.add_assoc]
  · simp only [hf, if_true] at hk
    subst hk
    have h5 : (gotBy sp k sh V).farm = true := hf
    have h6 : (gotBy sp k sh V).base = sp.base := rfl
    rw [gotBy, h5]
    simp only [if_true]
    have h7 : (sp.catchUp sh).pos = max sh.pos sp.base := by simp [Spec.catchUp, hf]
    simp only [Spec.catchUp, h5, if_true, h6, hf]
    simp only [gotBy, hf, if_true, hu, bytesOf_append, List.length_append, Nat.add_assoc, Spec.catchUp]
    congr 3
    have e1 : max (max sh.pos sp.base + V.length) sp.base = max sh.pos sp.base + V.length := by omega
    have e2 : sp.base - (max sh.pos sp.base + V.length) = 0 := by omega
    simp [e1, e2, Nat.add_assoc]

theorem spec_reads (hb : buf ≠ []) (hl : env.lockOk = true) : ∀ (V : List Msg) {sp : Spec} {sh : SHandle} {rest : List Msg}, V ≠ [] → sp.hs k = .live sh →
    sh.flags.has SHR_RDONLY = true → sp.readable sh = V ++ rest → (∀ m ∈ V, m.length ≤ min buf.length SSIZE_MAX) →
    sp.run (List.replicate V.length (.readv k buf 1 env)) =
      (gotBy sp k sh V, V.map (fun m => .read m.length [(0, m.length)] (m ++ buf.drop m.length))) := by
  intro V
  induction V with
  | nil => intro sp sh rest h; exact absurd rfl h
  | cons m ms ih =>
    intro sp sh rest _ hk hr hrd hm
    have h1 := hm m (by simp)
    have ht : takeCount (sp.readable sh) (min buf.length SSIZE_MAX) 1 = 1 := by
      rw [hrd, List.cons_append]
      simp only [takeCount, if_pos h1]
      cases ms ++ rest <;> rfl
    have e := spec_read_eq (env := env) (niov := 1) hk hr hb (by simp) hl (by rw [hrd]; simp)
    dsimp only at e
    rw [ht, hrd] at e
    have htk : ((m :: ms) ++ rest).take 1 = [m] := by simp
    have hby : bytesOf [m] = m.length := by simp [bytesOf]
    rw [htk] at e
    simp only [List.length_cons, List.replicate_succ, Spec.run, e, hby, layout, put, List.flatten_cons, List.flatten_nil, List.append_nil, List.take_zero, List.nil_append, Nat.zero_add,
      List.map_cons, List.cons_ne_nil, if_false]
    obtain ⟨sh', hk'⟩ : ∃ sh', (gotBy sp k sh [m]).hs k = .live sh' := ⟨_, upd_same _ _ _⟩
    by_cases hms : ms = []
    · subst hms; rfl
    · have hr' : sh'.flags.has SHR_RDONLY = true := by
        have := hk'
        simp only [gotBy, upd_same, Life.live.injEq] at this
        rw [← this]
        cases hf : sp.farm <;> simp [Spec.catchUp, hf, hr]
      rw [ih hms hk' hr' (readable_after (V := [m]) (by rw [hrd]; rfl) hk') (fun x hx => hm x (by simp [hx])), gotBy_append hk']
      rfl
end

/-- **C92.** A read that delivers several messages is, for everybody, now and later, the same as reading these messages one by one: these reads deliver the same
messages, and whatever is done afterwards gives the same results. -/
theorem C92_read {a : InitArgs} {pre post : List Op} {k niov : Nat} {buf buf' : List Byte} {iov : List (Nat × Nat)} {env : Env} {s s1 : Sys} {outs : List Out} {rc : Int}
    (v1 : Valid a (pre ++ (.readv k buf niov env :: post))) (v2 : Valid a (pre ++ (List.replicate iov.length (.readv k buf 1 env) ++ post)))
    (hrun : (Sys.init a).run pre = .ok (s, outs))
    (hstep : s.step (.readv k buf niov env) = .ok (s1, .read rc iov buf')) (hrc : 0 < rc) :
    ∃ s2, s.run (List.replicate iov.length (.readv k buf 1 env)) =
      .ok (s2, (iov.map (sliceOf buf')).map (fun m => .read m.length [(0, m.length)] (m ++ buf.drop m.length))) ∧
    ∃ o s1' s2', s1.run post = .ok (s1', o) ∧ s2.run post = .ok (s2', o) := by
  obtain ⟨sp, x, esp, _⟩ := v1.left.state hrun
  obtain ⟨t1, e2⟩ := v1.conts hrun
  obtain ⟨t2, e3⟩ := v2.conts hrun
  have vall : Valid a (pre ++ List.replicate iov.length (.readv k buf 1 env)) := by
    rw [← List.append_assoc] at v2; exact v2.left
  obtain ⟨s2a, e4⟩ := vall.conts hrun
  rw [← esp] at e2 e3 e4
  have ho : (sp.step (.readv k buf niov env)).2 = .read rc iov buf' := by
    simp only [Sys.run, hstep, Spec.run] at e2
    cases r1 : s1.run post with
    | error f => rw [r1] at e2; cases e2
    | ok p1 =>
      rw [r1] at e2
      simp only [Except.ok.injEq, Prod.mk.injEq, List.cons.injEq] at e2
      exact e2.2.1.symm
  obtain ⟨sh, hsk⟩ : ∃ sh, sp.hs k = .live sh := by
    cases hs : sp.hs k with
    | live sh => exact ⟨sh, rfl⟩
    | never => unfold Spec.step at ho; simp only [hs] at ho; cases ho
    | gone b => unfold Spec.step at ho; simp only [hs] at ho; cases ho
  have hr : sh.flags.has SHR_RDONLY = true := by
    cases hr : sh.flags.has SHR_RDONLY
    · exfalso; unfold Spec.step at ho; simp only [hsk, hr] at ho; cases ho
    · rfl
  have ho' := ho
  rw [step_readv_eq hsk hr] at ho'
  unfold Spec.readv at ho'
  by_cases hc : buf.length = 0 ∨ niov = 0 ∨ env.lockOk = false
  · rw [if_pos hc] at ho'; cases ho'; omega
  · rw [if_neg hc] at ho'
    have hne : sp.readable sh ≠ [] := by
      intro hU
      dsimp only at ho'
      rw [if_pos hU] at ho'
      cases h7 : sh.flags.has SHR_NONBLOCK
      · rw [h7] at ho'
        simp only [Bool.false_eq_true, if_false] at ho'
        cases h8 : env.waitRc with
        | none => rw [h8] at ho'; cases ho'
        | some e => rw [h8] at ho'; cases ho'; cases e <;> simp [WaitErr.rc] at hrc
      · rw [h7] at ho'; cases ho'; omega
    have hb : buf ≠ [] := by rintro rfl; exact hc (.inl rfl)
    have hn : niov ≠ 0 := fun h => hc (.inr (.inl h))
    have hl : env.lockOk = true := by
      cases h : env.lockOk
      · exact absurd (.inr (.inr h)) hc
      · rfl
    have eb := spec_read_eq (env := env) hsk hr hb hn hl hne
    dsimp only at eb
    have hbytes := takeCount_bytes (sp.readable sh) (min buf.length SSIZE_MAX) niov
    have hdr := List.take_append_drop (takeCount (sp.readable sh) (min buf.length SSIZE_MAX) niov) (sp.readable sh)
    generalize hV : (sp.readable sh).take (takeCount (sp.readable sh) (min buf.length SSIZE_MAX) niov) = V at eb hbytes hdr
    rw [eb] at ho
    have hVne : V ≠ [] := by
      rintro rfl
      simp at ho; omega
    rw [if_neg hVne] at ho
    simp only [Out.read.injEq] at ho
    obtain ⟨o1, o2, o3⟩ := ho
    have hlen : iov.length = V.length := by rw [← o2]; exact layout_length 0 V
    have hsl : iov.map (sliceOf buf') = V := by
      rw [← o2, ← o3]
      exact slices_layout V buf 0 (by omega)
    have es := spec_reads (env := env) hb hl V hVne hsk hr hdr.symm (by
      intro m hm
      obtain ⟨l1, l2, rfl⟩ := List.append_of_mem hm
      rw [bytesOf_append, bytesOf_cons] at hbytes
      omega)
    rw [hlen] at e3 e4
    refine ⟨s2a, by rw [hlen, e4, es, hsl], ?_⟩
    rw [sys_run_append, e4, run_append, es] at e3
    dsimp only at e3
    simp only [Sys.run, hstep, Spec.run, eb] at e2
    cases r1 : s1.run post with
    | error f => rw [r1] at e2; cases e2
    | ok p1 =>
      rw [r1] at e2
      cases r2 : s2a.run post with
      | error f => rw [r2] at e3; cases e3
      | ok p2 =>
        rw [r2] at e3
        simp only [Except.ok.injEq, Prod.mk.injEq, List.append_cancel_left_eq, List.cons.injEq] at e2 e3
        exact ⟨p1.2, p1.1, p2.1, rfl, by rw [e2.2.2, ← e3.2]⟩

/-! ## C93 -/

/-- The same call with every byte `b` of its data replaced by `f b`: of the messages, of the reader's buffer, of the application data. -/
def Op.mapBytes (f : Byte → Byte) : Op → Op
  | .writev k iov envF env => .writev k (iov.map (List.map f)) envF env
  | .readv k buf niov env => .readv k (buf.map f) niov env
  | .appdata k get set sz env => .appdata k get (set.map (List.map f)) sz env
  | op => op

/-- The same result with every byte `b` of the data replaced by `f b`. -/
def Out.mapBytes (f : Byte → Byte) : Out → Out
  | .read rc iov buf => .read rc iov (buf.map f)
  | .app o => .app { o with got := o.got.map (List.map f) }
  | o => o

def InitArgs.mapBytes (f : Byte → Byte) (a : InitArgs) : InitArgs := { a with app := a.app.map f }

def SHandle.mapBytes (f : Byte → Byte) (h : SHandle) : SHandle := { h with pend := h.pend.map (List.map f) }

def Life.mapBytes (f : Byte → Byte) : Life SHandle (List Msg) → Life SHandle (List Msg)
  | .never => .never
  | .live h => .live (h.mapBytes f)
  | .gone b => .gone (b.map (List.map f))

def Spec.mapBytes (f : Byte → Byte) (sp : Spec) : Spec :=
  { sp with tlog := sp.tlog.map (fun x => (x.1, x.2.map f)), app := sp.app.map f, hs := fun k => (sp.hs k).mapBytes f }

section
variable (f : Byte → Byte)

theorem bytesOf_mapB (l : List Msg) : bytesOf (l.map (List.map f)) = bytesOf l := by
  induction l with
  | nil => rfl
  | cons m ms ih => simp [ih]

theorem fits_mapB (cap maxm : Nat) (l n : List Msg) : Fits cap maxm (l.map (List.map f)) (n.map (List.map f)) ↔ Fits cap maxm l n := by
  simp [Fits, bytesOf_mapB]

theorem evict_mapB (cap maxm : Nat) (n l : List Msg) : evictCount cap maxm (n.map (List.map f)) (l.map (List.map f)) = evictCount cap maxm n l := by
  induction l with
  | nil => rfl
  | cons m ms ih =>
    simp only [List.map_cons, evictCount, ih]
    have := fits_mapB f cap maxm (m :: ms) n
    simp only [List.map_cons] at this
    simp only [this]

theorem take_mapB (l : List Msg) (len niov : Nat) : takeCount (l.map (List.map f)) len niov = takeCount l len niov := by
  induction l generalizing len niov with
  | nil => rfl
  | cons m ms ih => cases niov <;> simp [takeCount, ih]

theorem legal_mapB (cap maxm : Nat) (n : List Msg) : Legal cap maxm (n.map (List.map f)) ↔ Legal cap maxm n := by
  simp [Legal, bytesOf_mapB]

theorem layout_mapB (off : Nat) (l : List Msg) : layout off (l.map (List.map f)) = layout off l := by
  induction l generalizing off with
  | nil => rfl
  | cons m ms ih => simp [layout, ih]

theorem put_mapB (buf src : List Byte) (off : Nat) : put (buf.map f) off (src.map f) = (put buf off src).map f := by
  simp [put]

theorem flatten_mapB (l : List Msg) : (l.map (List.map f)).flatten = l.flatten.map f := by
  simp

theorem log_mapB (sp : Spec) : (sp.mapBytes f).log = sp.log.map (List.map f) := by
  simp [Spec.log, Spec.mapBytes, Function.comp_def]

theorem unread_mapB (sp : Spec) : (sp.mapBytes f).unread = sp.unread.map (List.map f) := by
  unfold Spec.unread; rw [log_mapB, List.map_drop]; rfl

theorem retained_mapB (sp : Spec) : (sp.mapBytes f).retained = sp.retained.map (List.map f) := by
  unfold Spec.retained; rw [log_mapB, List.map_drop]; rfl

theorem readable_mapB (sp : Spec) (h : SHandle) : (sp.mapBytes f).readable (h.mapBytes f) = (sp.readable h).map (List.map f) := by
  unfold Spec.readable
  rw [unread_mapB, log_mapB, ← List.map_drop]
  change (if sp.farm = true then _ else _) = _
  cases sp.farm <;> rfl

theorem commit_mapB (sp : Spec) (k : Nat) (new : List Msg) (c : Bool) :
    (sp.mapBytes f).commit k (new.map (List.map f)) c = (sp.commit k new c).mapBytes f := by
  unfold Spec.commit
  rw [unread_mapB, retained_mapB, evict_mapB f, evict_mapB f]
  dsimp only
  rw [← List.map_take, bytesOf_mapB, bytesOf_mapB, List.length_map]
  simp [Spec.mapBytes, Function.comp_def]

theorem tryWrite_mapB (sp : Spec) (k : Nat) (nb : Bool) (new : List Msg) (env : Env) :
    (sp.mapBytes f).tryWrite k nb (new.map (List.map f)) env = ((sp.tryWrite k nb new env).1.mapBytes f, (sp.tryWrite k nb new env).2) := by
  unfold Spec.tryWrite
  rw [unread_mapB, commit_mapB, bytesOf_mapB]
  have h1 : (sp.mapBytes f).cap = sp.cap := rfl
  have h2 : (sp.mapBytes f).maxm = sp.maxm := rfl
  have h3 : (sp.mapBytes f).drop = sp.drop := rfl
  have h4 : (sp.mapBytes f).gflags = sp.gflags := rfl
  rw [h1, h2, h3, h4]
  simp only [fits_mapB]
  split
  · rfl
  · split
    · rfl
    · split
      · rfl
      · split <;> rfl

theorem cacheFits_mapB (h : SHandle) (new : List Msg) : Spec.cacheFits (h.mapBytes f) (new.map (List.map f)) ↔ Spec.cacheFits h new := by
  unfold Spec.cacheFits SHandle.mapBytes
  simp only [bytesOf_mapB, List.length_map]

theorem pend_mapB (h : SHandle) : (h.mapBytes f).pend = h.pend.map (List.map f) := rfl

theorem writev_mapB (sp : Spec) (k : Nat) (h : SHandle) (new : List Msg) (envF env : Env) :
    (sp.mapBytes f).writev k (h.mapBytes f) (new.map (List.map f)) envF env =
      ((sp.writev k h new envF env).1.mapBytes f, (sp.writev k h new envF env).2.1.mapBytes f, (sp.writev k h new envF env).2.2) := by
  unfold Spec.writev
  have h1 : (sp.mapBytes f).cap = sp.cap := rfl
  have h2 : (sp.mapBytes f).maxm = sp.maxm := rfl
  have h3 : ∀ x, (h.mapBytes f).flags.has x = h.flags.has x := fun _ => rfl
  have h5 : ({ h.mapBytes f with pend := [] } : SHandle) = ({ h with pend := [] } : SHandle).mapBytes f := rfl
  simp only [h1, h2, h3, legal_mapB, cacheFits_mapB, bytesOf_mapB, pend_mapB, tryWrite_mapB, h5, List.map_eq_nil_iff]
  split
  · rfl
  · split
    · rfl
    · split
      · simp [SHandle.mapBytes]
      · split
        · rfl
        · cases (sp.tryWrite k (h.flags.has SHR_NONBLOCK) h.pend envF).2 with
          | wait => rfl
          | ret rc =>
            dsimp only
            split
            · rfl
            · split
              · simp [SHandle.mapBytes]
              · rfl

theorem catchUp_mapB (sp : Spec) (h : SHandle) : (sp.mapBytes f).catchUp (h.mapBytes f) = (sp.catchUp h).mapBytes f := by
  unfold Spec.catchUp
  change (if sp.farm = true then _ else _) = _
  cases sp.farm <;> rfl

theorem readv_mapB (sp : Spec) (h : SHandle) (buf : List Byte) (niov : Nat) (env : Env) :
    (sp.mapBytes f).readv (h.mapBytes f) (buf.map f) niov env =
      ((sp.readv h buf niov env).1.mapBytes f, (sp.readv h buf niov env).2.1.mapBytes f, (sp.readv h buf niov env).2.2.mapBytes f) := by
  unfold Spec.readv
  have h3 : (h.mapBytes f).flags = h.flags := rfl
  have h4 : (sp.mapBytes f).farm = sp.farm := rfl
  simp only [List.length_map, h3, h4, readable_mapB, catchUp_mapB, take_mapB, ← List.map_take, bytesOf_mapB, layout_mapB, flatten_mapB, put_mapB, List.map_eq_nil_iff]
  split
  · rfl
  · split
    · split
      · rfl
      · split <;> rfl
    · cases sp.farm <;> rfl

theorem flush_mapB (sp : Spec) (k : Nat) (h : SHandle) (wait : Bool) (env : Env) :
    (sp.mapBytes f).flush k (h.mapBytes f) wait env =
      ((sp.flush k h wait env).1.mapBytes f, (sp.flush k h wait env).2.1.mapBytes f, (sp.flush k h wait env).2.2) := by
  unfold Spec.flush
  have h3 : (h.mapBytes f).flags = h.flags := rfl
  have h4 : (h.mapBytes f).canWait = h.canWait := rfl
  simp only [h3, h4, pend_mapB, tryWrite_mapB, List.map_eq_nil_iff]
  split
  · rfl
  · split
    · rfl
    · cases (sp.tryWrite k (h.flags.has SHR_NONBLOCK && !wait) h.pend env).2 with
      | wait => rfl
      | ret rc => dsimp only; split <;> rfl

theorem upd_mapB (sp : Spec) (k : Nat) (x : Life SHandle (List Msg)) :
    (fun j => (upd sp.hs k x j).mapBytes f) = upd (fun j => (sp.hs j).mapBytes f) k (x.mapBytes f) := by
  funext j; unfold upd; split <;> rfl

theorem openH_mapB (sp : Spec) (flags : Flags) (env : Env) : (sp.mapBytes f).openH flags env = (sp.openH flags env).map (SHandle.mapBytes f) := by
  unfold Spec.openH
  have h1 : (sp.mapBytes f).cap = sp.cap := rfl
  have h2 : (sp.mapBytes f).maxm = sp.maxm := rfl
  have h3 : (sp.mapBytes f).drop = sp.drop := rfl
  have h4 : (sp.mapBytes f).gflags = sp.gflags := rfl
  have h5 : (sp.mapBytes f).base = sp.base := rfl
  simp only [h1, h2, h3, h4, h5]
  split <;> rfl

theorem appdata_mapB (sp : Spec) (get : GetArg) (set : Option (List Byte)) (sz : Nat) (env : Env) :
    (sp.mapBytes f).appdata get (set.map (List.map f)) sz env =
      ((sp.appdata get set sz env).1.mapBytes f, { (sp.appdata get set sz env).2 with got := (sp.appdata get set sz env).2.got.map (List.map f) }) := by
  unfold Spec.appdata
  have h4 : (sp.mapBytes f).gflags = sp.gflags := rfl
  have h5 : (sp.mapBytes f).app = sp.app.map f := rfl
  simp only [h4, h5, List.length_map]
  split
  · rfl
  · cases get <;> cases set <;> simp only [Option.map_none, Option.map_some]
    all_goals first | rfl | skip
    all_goals split
    all_goals simp [Spec.mapBytes]

theorem statOf_mapB (sp : Spec) (h : SHandle) : (sp.mapBytes f).statOf (h.mapBytes f) = sp.statOf h := by
  unfold Spec.statOf
  rw [unread_mapB, pend_mapB, bytesOf_mapB, bytesOf_mapB, List.length_map, List.length_map]
  rfl

theorem spec_step_mapB (sp : Spec) (op : Op) : (sp.mapBytes f).step (op.mapBytes f) = ((sp.step op).1.mapBytes f, (sp.step op).2.mapBytes f) := by
  have hh : ∀ k, (sp.mapBytes f).hs k = (sp.hs k).mapBytes f := fun k => rfl
  cases op with
  | «open» k flags env =>
    simp only [Op.mapBytes, Spec.step, hh]
    cases hs : sp.hs k with
    | never =>
      simp only [Life.mapBytes, openH_mapB]
      split
      · rfl
      · cases sp.openH flags env with
        | none => rfl
        | some h => simp only [Option.map_some, Out.mapBytes, Spec.mapBytes, upd_mapB]; rfl
    | live h => rfl
    | gone b => rfl
  | writev k iov envF env =>
    simp only [Op.mapBytes, Spec.step, hh]
    cases hs : sp.hs k with
    | never => rfl
    | gone b => rfl
    | live h =>
      simp only [Life.mapBytes, writev_mapB]
      change (if h.flags.has SHR_WRONLY = false then _ else _) = _
      split
      · rfl
      · cases hx : (sp.writev k h iov envF env).2.2 <;> (simp only [Spec.mapBytes, upd_mapB, Spec.WRes.out, Out.mapBytes]; rfl)
  | readv k buf niov env =>
    simp only [Op.mapBytes, Spec.step, hh]
    cases hs : sp.hs k with
    | never => rfl
    | gone b => rfl
    | live h =>
      simp only [Life.mapBytes, readv_mapB]
      change (if h.flags.has SHR_RDONLY = false then _ else _) = _
      split
      · rfl
      · simp only [Spec.mapBytes, upd_mapB]; rfl
  | flush k wait env =>
    simp only [Op.mapBytes, Spec.step, hh]
    cases hs : sp.hs k with
    | never => rfl
    | gone b => rfl
    | live h =>
      simp only [Life.mapBytes, flush_mapB]
      change (if h.flags.has SHR_WRONLY = false then _ else _) = _
      split
      · rfl
      · cases hx : (sp.flush k h wait env).2.2 <;> (simp only [Spec.mapBytes, upd_mapB, Spec.WRes.out, Out.mapBytes]; rfl)
  | close k env =>
    simp only [Op.mapBytes, Spec.step, hh]
    cases hs : sp.hs k with
    | never => rfl
    | gone b => rfl
    | live h =>
      simp only [Life.mapBytes, flush_mapB]
      cases hx : (sp.flush k h false env).2.2 <;> first | rfl | (simp only [Spec.mapBytes, upd_mapB, Out.mapBytes]; done) | (simp only [Spec.mapBytes, upd_mapB, Out.mapBytes]; rfl)
  | stat k reset env =>
    simp only [Op.mapBytes, Spec.step, hh]
    cases hs : sp.hs k with
    | never => rfl
    | gone b => rfl
    | live h =>
      simp only [Life.mapBytes, statOf_mapB]
      split
      · rfl
      · cases reset <;> rfl
  | farmStat k reset =>
    simp only [Op.mapBytes, Spec.step, hh]
    cases hs : sp.hs k with
    | never => rfl
    | gone b => rfl
    | live h =>
      simp only [Life.mapBytes]
      change (if h.flags.has SHR_RDONLY = false then _ else _) = _
      split
      · rfl
      · simp only [Spec.mapBytes, upd_mapB, Out.mapBytes]
        cases reset <;> rfl
  | appdata k get set sz env =>
    simp only [Op.mapBytes, Spec.step, hh]
    cases hs : sp.hs k with
    | never => rfl
    | gone b => rfl
    | live h => simp only [Life.mapBytes, appdata_mapB, Out.mapBytes]

theorem spec_run_mapB (ops : List Op) : ∀ sp : Spec,
    (sp.mapBytes f).run (ops.map (Op.mapBytes f)) = ((sp.run ops).1.mapBytes f, (sp.run ops).2.map (Out.mapBytes f)) := by
  induction ops with
  | nil => intro sp; rfl
  | cons op ops ih => intro sp; simp only [List.map_cons, Spec.run, spec_step_mapB, ih]

theorem valid_mapB {a : InitArgs} {ops : List Op} (v : Valid a ops) : Valid (a.mapBytes f) (ops.map (Op.mapBytes f)) where
  init := ⟨v.init.pos, v.init.sz, by have := v.init.app; simpa [InitArgs.appsize, InitArgs.mapBytes] using this, v.init.mm⟩
  wf := by
    intro op hop
    obtain ⟨o, ho, rfl⟩ := List.mem_map.1 hop
    have hw := v.wf o ho
    have ha : (a.mapBytes f).appsize = a.appsize := by simp [InitArgs.appsize, InitArgs.mapBytes]
    rw [ha]
    cases o with
    | writev k iov envF env =>
      simp only [Op.mapBytes, Op.WF, WriteWF] at hw ⊢
      refine ⟨?_, ?_⟩
      · intro b hb
        obtain ⟨c, hc, rfl⟩ := List.mem_map.1 hb
        simpa using hw.1 c hc
      · rcases hw.2 with h | h
        · left; cases iov with
          | nil => cases h
          | cons m ms => simp at h; simp [h]
        · right
          intro b hb
          obtain ⟨c, hc, rfl⟩ := List.mem_map.1 hb
          simpa using h c hc
    | readv k buf niov env => simpa [Op.mapBytes, Op.WF] using hw
    | appdata k get set sz env =>
      simp only [Op.mapBytes, Op.WF, AppWF] at hw ⊢
      obtain ⟨h1, h2, h3⟩ := hw
      refine ⟨?_, h2, ?_⟩
      · intro b hb
        cases set with
        | none => cases hb
        | some c => simp at hb; rw [← hb]; simpa using h1 c rfl
      · intro cap hc hs
        exact h3 cap hc (by cases set <;> simp at hs ⊢)
    | _ => exact hw
  count := by
    intro hf
    have hof : ∀ l : List Op, offered (l.map (Op.mapBytes f)) = offered l := by
      intro l
      induction l with
      | nil => rfl
      | cons o l ih => cases o <;> simp [Op.mapBytes, offered, ih]
    rw [List.length_map, hof]
    exact v.count hf

/-- **C93.** The library never looks at the bytes: replace every byte `b` given to it by `f b`, whatever the function, and every result is the same, with
`f b` in place of `b`. -/
theorem C93_data {a : InitArgs} {ops : List Op} {s : Sys} {outs : List Out} (v : Valid a ops) (hrun : (Sys.init a).run ops = .ok (s, outs)) :
    ∃ s', (Sys.init (a.mapBytes f)).run (ops.map (Op.mapBytes f)) = .ok (s', outs.map (Out.mapBytes f)) := by
  obtain ⟨s', e, _⟩ := (valid_mapB f v).reach
  obtain ⟨s0, e0, _⟩ := v.reach
  rw [hrun] at e0
  simp only [Except.ok.injEq, Prod.mk.injEq] at e0
  refine ⟨s', ?_⟩
  rw [e, e0.2]
  have : Spec.init (a.mapBytes f) = (Spec.init a).mapBytes f := by
    unfold Spec.init Spec.mapBytes InitArgs.mapBytes
    have h1 : ({ a with app := a.app.map f } : InitArgs).max_msgs = a.max_msgs := rfl
    have h2 : ({ a with app := a.app.map f } : InitArgs).gflags = a.gflags := rfl
    simp only [h1, h2]
    congr 1
    split <;> simp
  rw [this, spec_run_mapB]
end

/-- **C93.** Two histories that differ only in the bytes: every call returns the same numbers in both, and delivers data of the same lengths. -/
theorem C93_shape {a b : InitArgs} {ops ops' : List Op} {s s' : Sys} {outs outs' : List Out} (v : Valid a ops) (v' : Valid b ops')
    (ha : a.mapBytes (fun _ => 0) = b.mapBytes (fun _ => 0)) (hops : ops.map (Op.mapBytes (fun _ => 0)) = ops'.map (Op.mapBytes (fun _ => 0)))
    (hrun : (Sys.init a).run ops = .ok (s, outs)) (hrun' : (Sys.init b).run ops' = .ok (s', outs')) :
    outs.map (Out.mapBytes (fun _ => 0)) = outs'.map (Out.mapBytes (fun _ => 0)) := by
  obtain ⟨t, e⟩ := C93_data (fun _ => 0) v hrun
  obtain ⟨t', e'⟩ := C93_data (fun _ => 0) v' hrun'
  rw [← ha, ← hops, e] at e'
  simp only [Except.ok.injEq, Prod.mk.injEq] at e'
  exact e'.2

/-- C92_write on a full SHR_DROP ring, where the batch evicts unread messages. -/
example : ∃ s2, (final demoD demoOps).run [wr 0 [[1, 2]], wr 0 [[3, 4]]] = .ok (s2, [.wrote 2, .wrote 2]) ∧
    ∃ o s1' s2', (final demoD (demoOps ++ [wr 0 [[1, 2], [3, 4]]])).run [rd 1 10 5] = .ok (s1', o) ∧ s2.run [rd 1 10 5] = .ok (s2', o) := by
  have v1 : Valid demoD (demoOps ++ (wr 0 [[1, 2], [3, 4]] :: [rd 1 10 5])) := valid_of (by decide +kernel)
  have v2 : Valid demoD (demoOps ++ ([wr 0 [[1, 2]], wr 0 [[3, 4]]] ++ [rd 1 10 5])) := valid_of (by decide +kernel)
  have v : Valid demoD (demoOps ++ [wr 0 [[1, 2], [3, 4]]]) := valid_of (by decide +kernel)
  have hs := v.steps
  rw [show lastOut demoD (demoOps ++ [wr 0 [[1, 2], [3, 4]]]) = .wrote 4 from by decide +kernel] at hs
  exact (C92_write v1 v2 v.left.runs (live_handle (by decide +kernel)) (by decide +kernel) hs (by omega)).2

/-- C92_read on a farm, where the other reader then sees both messages too. -/
example : ∃ s2, (final demoF farmOps).run [rd 1 8 1, rd 1 8 1] =
      .ok (s2, [.read 3 [(0, 3)] [1, 2, 3, 0, 0, 0, 0, 0], .read 4 [(0, 4)] [4, 5, 6, 7, 0, 0, 0, 0]]) ∧
    ∃ o s1' s2', (final demoF (farmOps ++ [rd 1 8 5])).run [rd 2 8 5] = .ok (s1', o) ∧ s2.run [rd 2 8 5] = .ok (s2', o) := by
  have v1 : Valid demoF (farmOps ++ (rd 1 8 5 :: [rd 2 8 5])) := valid_of (by decide +kernel)
  have v2 : Valid demoF (farmOps ++ ([rd 1 8 1, rd 1 8 1] ++ [rd 2 8 5])) := valid_of (by decide +kernel)
  have v : Valid demoF (farmOps ++ [rd 1 8 5]) := valid_of (by decide +kernel)
  have hs := v.steps
  rw [show lastOut demoF (farmOps ++ [rd 1 8 5]) = .read 7 [(0, 3), (3, 4)] [1, 2, 3, 4, 5, 6, 7, 0] from by decide +kernel] at hs
  exact C92_read (iov := [(0, 3), (3, 4)]) v1 v2 v.left.runs hs (by omega)

/-- C93_data: the demonstration with every byte inverted. -/
example : ∃ s', (Sys.init (demoA.mapBytes (255 - ·))).run [opn 0 (SHR_WRONLY ||| SHR_NONBLOCK), opn 1 (SHR_RDONLY ||| SHR_NONBLOCK),
    wr 0 [[254, 253, 252], [251, 250, 249, 248]], .readv 1 [255, 255, 255, 255, 255] 1 {}, wr 0 [[247, 246, 245, 244]]] =
    .ok (s', [.opened true, .opened true, .wrote 7, .read 3 [(0, 3)] [254, 253, 252, 255, 255], .wrote 4]) := by
  have v : Valid demoA demoOps := valid_of (by decide +kernel)
  have hs := v.runs
  rw [show outsOf demoA demoOps = [.opened true, .opened true, .wrote 7, .read 3 [(0, 3)] [1, 2, 3, 0, 0], .wrote 4] from by decide +kernel] at hs
  have h := C93_data (255 - ·) v hs
  apply And.left
  refine ⟨?_, trivial⟩
  obtain ⟨s', h⟩ := h
  refine ⟨s', ?_⟩
  rw [← show demoOps.map (Op.mapBytes (255 - ·)) = [opn 0 (SHR_WRONLY ||| SHR_NONBLOCK), opn 1 (SHR_RDONLY ||| SHR_NONBLOCK),
    wr 0 [[254, 253, 252], [251, 250, 249, 248]], .readv 1 [255, 255, 255, 255, 255] 1 {}, wr 0 [[247, 246, 245, 244]]] from by rfl]
  rw [h]
  rfl

/-- C93_shape: two histories of writes and reads with different data. -/
example : (outsOf demoA demoOps).map (Out.mapBytes (fun _ => 0)) = (outsOf demoA [opn 0 (SHR_WRONLY ||| SHR_NONBLOCK), opn 1 (SHR_RDONLY ||| SHR_NONBLOCK),
    wr 0 [[7, 7, 7], [8, 8, 8, 8]], rd 1 5 1, wr 0 [[0, 255, 0, 255]]]).map (Out.mapBytes (fun _ => 0)) := by
  have v : Valid demoA demoOps := valid_of (by decide +kernel)
  have v' : Valid demoA [opn 0 (SHR_WRONLY ||| SHR_NONBLOCK), opn 1 (SHR_RDONLY ||| SHR_NONBLOCK),
    wr 0 [[7, 7, 7], [8, 8, 8, 8]], rd 1 5 1, wr 0 [[0, 255, 0, 255]]] := valid_of (by decide +kernel)
  exact C93_shape v v' rfl rfl v.runs v'.runs

end Shr
