import Verif.Proof.At
/-! # What a read leaves untouched in ring memory -/
namespace Shr

/-- The ring after a read that delivered `t` messages with `z` bytes. -/
def afterRead (r : Ring) (t z : Nat) : Ring :=
  { consumed r t z with stat := { r.stat with br := wadd r.stat.br z, mr := wadd r.stat.mr t } }

theorem readvAttempt_frame {r : Ring} {sp : Spec} (h : RingRel r sp) {c : RCur} {sh : SHandle}
    (hc : CurRel sp c sh) (hrd : sh.flags.has SHR_RDONLY = true) (hmd : (!sh.flags.has SHR_WRONLY) = true)
    (buf : List Byte) (hbl : buf.length < W) (niov : Nat) (env : Env) :
    Ok (readvAttempt sh.flags c buf buf.length niov env) r (fun _ => True) (fun _ r' =>
      r' = r ∨ r' = afterRead r (takeCount (sp.readable sh) (min buf.length SSIZE_MAX) niov)
        (bytesOf ((sp.readable sh).take (takeCount (sp.readable sh) (min buf.length SSIZE_MAX) niov)))) := by
  have hS := SSIZE_MAX_val
  unfold readvAttempt
  apply Ok.assert_bind hrd
  by_cases hb0 : buf.length = 0
  · rw [if_pos hb0]; exact Ok.pure (.inl rfl)
  rw [if_neg hb0]
  by_cases hn0 : niov = 0
  · rw [if_pos hn0]; exact Ok.pure (.inl rfl)
  rw [if_neg hn0]
  by_cases hlk : env.lockOk = false
  · rw [if_pos hlk]; exact Ok.pure (.inl rfl)
  rw [if_neg hlk]
  apply Ok.get_bind
  rw [next_msg_info_catchUp]
  have hv := rview_of h hc
  obtain ⟨hnil, hcons⟩ := next_msg_info_spec hv
  have hlen : (if buf.length > SSIZE_MAX then SSIZE_MAX else buf.length) = min buf.length SSIZE_MAX := by
    split <;> omega
  rcases readable_eq_nil_or (sp := sp) sh with hU | ⟨b, U, hU⟩
  · refine Ok.lift_bind (hnil hU) ?_
    apply Ok.assert_bind hmd
    by_cases hnbk : sh.flags.has SHR_NONBLOCK = true
    · simp only [if_pos hnbk]; exact Ok.pure (.inl rfl)
    · simp only [if_neg hnbk]
      cases env.waitRc with
      | none => exact Ok.pure (.inl rfl)
      | some sc => exact Ok.pure (.inl rfl)
  · obtain ⟨mi, hnm, hinf⟩ := hcons b U hU
    refine Ok.lift_bind hnm ?_
    rw [hU] at hv ⊢
    unfold readvBody
    apply Ok.bind
    rw [hlen]
    have hrl := readLoop_spec niov (st := ⟨farmCatchUp r c, buf, 0, min buf.length SSIZE_MAX, 0, []⟩) hv hinf
      (by simp; omega) hbl (by simp; omega) (by
        intro hf
        obtain ⟨p0, hC⟩ := hv.core
        rw [(hv.cons hf).2]; exact Nat.mod_lt _ hC.mmpos) (fun _ => True) (fun _ _ => trivial)
    refine hrl.mono (fun _ _ => trivial) ?_
    rintro ⟨st, fl⟩ r1 ⟨e1, e2, e3⟩
    dsimp only at e1 e2 e3
    generalize ht : takeCount (b :: U) (min buf.length SSIZE_MAX) niov = t at *
    have htle : t ≤ (b :: U).length := by rw [← ht]; exact takeCount_le_length _ _ _
    have hr1st : r1.stat = r.stat := by rw [e3]; unfold consumed; split <;> rfl
    refine Ok.store_bind trivial ?_
    refine Ok.store_bind trivial ?_
    apply Ok.assert_bind hmd
    apply Ok.pure
    right
    have hll : st.iov.length = t := by
      rw [e1]; simp only [RdSt.deliver, List.nil_append]
      rw [layout_length, List.length_take, Nat.min_eq_left htle]
    have hnr : st.nr = bytesOf ((b :: U).take t) := by
      rw [e1]; simp [RdSt.deliver]
    unfold afterRead
    rw [← e3, hll, hnr, ← hr1st]

/-- The ring after a call of `shr_readv` on a reachable state. -/
theorem readv_frame {s s' : Sys} {sp : Spec} (hr : Rel s sp) {k : Nat} {h : Handle} {sh : SHandle}
    (hk : s.hs k = .live h) (hh : HRel sp h sh) (hrd : h.flags.has SHR_RDONLY = true) {buf : List Byte}
    (hbl : buf.length < W) {niov : Nat} {env : Env} {o : Out}
    (hstep : s.step (.readv k buf niov env) = .ok (s', o)) :
    (s'.ring = s.ring ∨
      s'.ring = afterRead s.ring (takeCount (sp.readable sh) (min buf.length SSIZE_MAX) niov)
        (bytesOf ((sp.readable sh).take (takeCount (sp.readable sh) (min buf.length SSIZE_MAX) niov)))) ∧
    (∀ j, j ≠ k → s'.hs j = s.hs j) := by
  have hf := hh.flags
  have h1 := (readvAttempt_frame hr.ring hh.cur (hf ▸ hrd) (hh.nowr (hf ▸ hrd)) buf hbl niov env).exec_eq
  obtain ⟨x, r', e, h2⟩ := h1
  unfold Sys.step at hstep
  simp only [hk, hrd, Bool.true_eq_false, if_false] at hstep
  have : exec (shr_readv h buf buf.length niov env) s.ring = .ok (({ h with cur := x.1 }, x.2), r') := by
    unfold exec at e ⊢
    unfold shr_readv
    rw [M.bind_apply, hf]
    cases hres : (readvAttempt sh.flags h.cur buf buf.length niov env s.ring).res with
    | ok a r'' => rw [hres] at e; simp at e; obtain ⟨rfl, rfl⟩ := e; rfl
    | abort _ => rw [hres] at e; simp at e
    | ub => rw [hres] at e; simp at e
    | hang => rw [hres] at e; simp at e
  rw [this] at hstep
  simp only [Except.ok.injEq, Prod.mk.injEq] at hstep
  obtain ⟨e1, _⟩ := hstep
  subst e1
  refine ⟨h2, fun j hj => ?_⟩
  show upd s.hs k _ j = _
  unfold upd; rw [if_neg hj]

/-- `Spec.readable` in terms of ring memory and the reader's cursor. -/
theorem readableBy_eq {r : Ring} {sp : Spec} (h : RingRel r sp) {hd : Handle} {sh : SHandle}
    (hh : HRel sp hd sh) : r.readableBy hd = sp.readable sh := by
  unfold Ring.readableBy Spec.readable
  rw [h.gf]
  show (if sp.farm = true then _ else _) = _
  cases hf : sp.farm
  · simp [h.unreadMsgs]
  · simp only [if_true]
    rw [h.presentMsgs, h.q_eq hf, (hh.cur.q hf).1]
    unfold Spec.retained
    rw [List.drop_drop]
    congr 1; omega

end Shr
