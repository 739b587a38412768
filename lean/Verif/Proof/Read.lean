import Verif.Proof.Commit
namespace Shr

/-- What reader `c` sees in `r`: the messages `U`, stored from slot number `gr`. -/
structure RView (r : Ring) (c : RCur) (gr : Nat) (U : List Msg) : Prop where
  core : ∃ p0, Core r gr p0 U
  ult : r.u < W
  farm : r.gflags.has SHR_FARM = true →
    c.q = gr ∧ r.q ≤ gr ∧ r.q + r.mp = gr + U.length ∧ gr + U.length < W
  cons : r.gflags.has SHR_FARM = false → r.m = U.length ∧ r.r = gr % r.mm

/-- `mi` describes where the bytes of `b` lie. -/
structure InfoFor (r : Ring) (b : Msg) (mi : MsgInfo) : Prop where
  len : mi.l1 + mi.l2 = b.length
  rd1 : memRead r.d mi.m1 mi.l1 = .ok (b.take mi.l1)
  rd2 : memRead r.d 0 mi.l2 = .ok (b.drop mi.l1)

theorem farmCatchUp_id {r : Ring} {c : RCur} (h : r.gflags.has SHR_FARM = true → r.q ≤ c.q) :
    farmCatchUp r c = c := by
  unfold farmCatchUp
  rw [if_neg]
  rintro ⟨h1, h2⟩
  have := h h1; omega

theorem next_msg_info_spec {r : Ring} {c : RCur} {gr : Nat} {U : List Msg} (h : RView r c gr U) :
    (U = [] → next_msg_info r c = .ok (c, none)) ∧
    (∀ b U', U = b :: U' → ∃ mi, next_msg_info r c = .ok (c, some mi) ∧ InfoFor r b mi) := by
  obtain ⟨p0, hC⟩ := h.core
  have nbd := hC.nbd; have mmpos := hC.mmpos; have mmbd := hC.mmbd
  rw [SSIZE_MAX_val] at nbd mmbd
  have hcu : farmCatchUp r c = c := farmCatchUp_id (fun hf => by have := h.farm hf; omega)
  have hready : msgReady r c = decide (U ≠ []) := by
    unfold msgReady
    cases hf : r.gflags.has SHR_FARM
    · have := h.cons hf
      simp only [Bool.false_eq_true, if_false, this.1]
      cases U <;> simp
    · obtain ⟨h1, h2, h3, h4⟩ := h.farm hf
      simp only [if_true]
      rw [wadd_eq (by omega), h3, h1]
      cases U <;> simp
  constructor
  · intro hU
    unfold next_msg_info
    simp only [hcu]
    rw [if_pos (by rw [hready]; simp [hU])]
  · rintro b U' rfl
    have hs := hC.slots 0 b (by simp)
    simp at hs
    have hb : b.length ≤ r.n := by have := hC.tot; simp at this; omega
    have p0lt := hC.p0lt
    rw [Nat.mod_eq_of_lt p0lt] at hs
    have hdat := circ_read (b := b) hC.dlen p0lt hb (by
      intro t x ht
      have := hC.msg_data (j := 0) (b := b) (by simp) t x ht
      simpa [Nat.mod_eq_of_lt p0lt] using this)
    have hslot : (if r.gflags.has SHR_FARM = true then c.q % r.mm else r.r) = gr % r.mm := by
      cases hf : r.gflags.has SHR_FARM
      · simp [(h.cons hf).2]
      · simp [(h.farm hf).1]
    unfold next_msg_info
    simp only [hcu]
    rw [if_neg (by rw [hready]; simp), if_neg (by rintro ⟨_, h0⟩; omega)]
    simp only [hslot, hs]
    rw [wadd_eq (by rw [W_val]; omega)]
    have hd := hC.dlen
    by_cases hw : p0 + b.length > r.n
    · obtain ⟨d1, d2⟩ := hdat.2 hw
      simp only [if_pos hw]
      rw [wsub_eq (a := r.n) (by omega) (by rw [W_val]; omega),
        wsub_eq (a := b.length) (by omega) (by rw [W_val]; omega)]
      refine ⟨_, rfl, ⟨?_, ?_, ?_⟩⟩
      · dsimp only; omega
      · unfold memRead; dsimp only; rw [if_pos (by omega), d1]
      · unfold memRead; dsimp only; rw [if_pos (by omega), List.drop_zero, d2]
    · have d1 := hdat.1 (by omega)
      simp only [if_neg hw]
      refine ⟨_, rfl, ⟨?_, ?_, ?_⟩⟩
      · dsimp only; omega
      · unfold memRead; dsimp only; rw [if_pos (by omega), d1, List.take_length]
      · unfold memRead; dsimp only; rw [if_pos (by omega)]; simp

/-- The ring after `k` messages with `z` bytes in total were consumed. -/
def consumed (r : Ring) (k z : Nat) : Ring :=
  if r.gflags.has SHR_FARM = true then r
  else { r with r := (r.r + k) % r.mm, u := wsub r.u z, m := r.m - k }

/-- The cursor after `k` messages were read. -/
def advanced (r : Ring) (c : RCur) (k : Nat) : RCur :=
  if r.gflags.has SHR_FARM = true then { c with q := c.q + k } else c

theorem RView.consumed {r : Ring} {c : RCur} {gr k : Nat} {U : List Msg} (h : RView r c gr U)
    (hk : k ≤ U.length) (z : Nat) :
    RView (consumed r k z) (advanced r c k) (gr + k) (U.drop k) := by
  obtain ⟨p0, hC⟩ := h.core
  cases hf : r.gflags.has SHR_FARM
  · obtain ⟨h1, h2⟩ := h.cons hf
    unfold Shr.consumed advanced
    simp only [hf, Bool.false_eq_true, if_false]
    refine ⟨⟨_, (hC.drop k).congr rfl rfl rfl rfl⟩, Nat.mod_lt _ (by decide), ?_, ?_⟩
    · intro hf'; dsimp only at hf'; rw [hf] at hf'; simp at hf'
    · intro _
      dsimp only
      refine ⟨by simp [h1], ?_⟩
      rw [h2, mod_add_mod_left]
  · obtain ⟨h1, h2, h3, h4⟩ := h.farm hf
    unfold Shr.consumed advanced
    simp only [hf, if_true]
    refine ⟨⟨_, hC.drop k⟩, h.ult, ?_, ?_⟩
    · intro _
      dsimp only
      simp; omega
    · intro hf'; rw [hf] at hf'; simp at hf'

theorem put_put {d : List Byte} {off : Nat} {a b : List Byte} (h : off + a.length + b.length ≤ d.length) :
    put (put d off a) (off + a.length) b = put d off (a ++ b) := by
  have hl : (put d off a).length = d.length := put_length (by omega)
  apply List.ext_getElem?
  intro t
  rcases Nat.lt_or_ge t (off + a.length) with h1 | h1
  · rw [put_getElem?_out (by omega) (by omega)]
    rcases Nat.lt_or_ge t off with h2 | h2
    · rw [put_getElem?_out (by omega) (by omega), put_getElem?_out (by simp; omega) (by omega)]
    · obtain ⟨j, rfl⟩ : ∃ j, t = off + j := ⟨t - off, by omega⟩
      rw [put_getElem?_in (by omega) (by omega), put_getElem?_in (by simp; omega) (by simp; omega),
        List.getElem?_append_left (by omega)]
  · rcases Nat.lt_or_ge t (off + a.length + b.length) with h2 | h2
    · obtain ⟨j, rfl⟩ : ∃ j, t = off + a.length + j := ⟨t - (off + a.length), by omega⟩
      rw [put_getElem?_in (by omega) (by omega), Nat.add_assoc,
        put_getElem?_in (by simp; omega) (by simp; omega), List.getElem?_append_right (by omega)]
      congr 1; omega
    · rw [put_getElem?_out (by omega) (by omega), put_getElem?_out (by omega) (by omega),
        put_getElem?_out (by simp; omega) (by simp; omega)]

/-- The loop state after `V` was delivered. -/
def RdSt.deliver (st : RdSt) (r : Ring) (V : List Msg) : RdSt :=
  { cur := advanced r st.cur V.length
    buf := put st.buf st.off V.flatten
    off := st.off + bytesOf V
    len := st.len - bytesOf V
    nr := st.nr + bytesOf V
    iov := st.iov ++ layout st.off V }

/-- The ring inside a read that takes `z` bytes: only the read position and the counts of unread messages have
changed, and they have not left their ranges. -/
structure ReadPt (r : Ring) (z : Nat) (s : Ring) : Prop where
  eq : s = { r with r := s.r, u := s.u, m := s.m }
  u : z ≤ r.u → s.u ≤ r.u
  r : r.r < r.mm → s.r < r.mm

theorem readOne_spec {r : Ring} {st : RdSt} {gr : Nat} {b : Msg} {U : List Msg} {mi : MsgInfo}
    (h : RView r st.cur gr (b :: U)) (hi : InfoFor r b mi) (hlen : b.length ≤ st.len)
    (hbuf : st.off + st.len ≤ st.buf.length) (hbl : st.buf.length < W)
    (hnr : st.nr + st.len < W) (T : Ring → Prop) (hT : ∀ s, ReadPt r b.length s → T s) :
    Ok (readOne st mi) r T (fun st' r' =>
      st' = st.deliver r [b] ∧ r' = consumed r 1 b.length) := by
  obtain ⟨p0, hC⟩ := h.core
  have mmbd := hC.mmbd; have mmpos := hC.mmpos
  rw [SSIZE_MAX_val] at mmbd
  obtain ⟨hl, rd1, rd2⟩ := hi
  have hbne : 0 < b.length := List.length_pos_iff.mpr (hC.ne b (by simp))
  have hL : wadd mi.l1 mi.l2 = b.length := by rw [wadd_eq (by omega), hl]
  have hw1 : memWrite st.buf st.off (b.take mi.l1) = .ok (put st.buf st.off (b.take mi.l1)) := by
    unfold memWrite; rw [if_pos]; simp; omega
  have hW1 := put_length (d := st.buf) (off := st.off) (src := b.take mi.l1) (by simp; omega)
  have htl : (b.take mi.l1).length = mi.l1 := by simp; omega
  have hdl : (b.drop mi.l1).length = mi.l2 := by simp; omega
  have hpp : put (put st.buf st.off (b.take mi.l1)) (st.off + mi.l1) (b.drop mi.l1) =
      put st.buf st.off b := by
    have := put_put (d := st.buf) (off := st.off) (a := b.take mi.l1) (b := b.drop mi.l1) (by omega)
    rw [htl, List.take_append_drop] at this
    exact this
  have hw2 : memWrite (put st.buf st.off (b.take mi.l1)) (wadd st.off mi.l1) (b.drop mi.l1) =
      .ok (put st.buf st.off b) := by
    rw [wadd_eq (by omega)]
    unfold memWrite; rw [if_pos (by omega), hpp]
  unfold readOne
  apply Ok.get_bind
  refine Ok.lift_bind rd1 ?_
  refine Ok.lift_bind hw1 ?_
  have hcont : ∀ buf2, buf2 = put st.buf st.off b → Ok (
      (if r.gflags.has SHR_FARM = true then
        pure { st with
          buf := buf2, off := wadd st.off (wadd mi.l1 mi.l2), len := wsub st.len (wadd mi.l1 mi.l2),
          nr := wadd st.nr (wadd mi.l1 mi.l2), iov := st.iov ++ [(st.off, wadd mi.l1 mi.l2)]
          cur := { st.cur with q := wadd st.cur.q 1 } }
      else if r.mm = 0 then M.lift (.error .ub)
      else do
        M.store fun r => { r with r := wadd r.r 1 % r.mm }
        M.store fun r => { r with u := wsub r.u (wadd mi.l1 mi.l2) }
        M.store fun r => { r with m := wsub r.m 1 }
        pure { st with
          buf := buf2, off := wadd st.off (wadd mi.l1 mi.l2), len := wsub st.len (wadd mi.l1 mi.l2),
          nr := wadd st.nr (wadd mi.l1 mi.l2), iov := st.iov ++ [(st.off, wadd mi.l1 mi.l2)] }) :
        M Ring RdSt) r T (fun st' r' =>
      st' = st.deliver r [b] ∧ r' = consumed r 1 b.length) := by
    rintro _ rfl
    rw [hL, wadd_eq (a := st.off) (by omega), wadd_eq (a := st.nr) (by omega), wsub_eq (a := st.len) (by omega) (by omega)]
    cases hf : r.gflags.has SHR_FARM
    · obtain ⟨h1, h2⟩ := h.cons hf
      simp only [Bool.false_eq_true, if_false]
      rw [if_neg (by omega)]
      have hsub : b.length ≤ r.u → wsub r.u b.length ≤ r.u := fun hle => by
        have := h.ult
        rw [wsub_eq hle (by omega)]; exact Nat.sub_le _ _
      refine Ok.store_bind (hT _ ⟨rfl, fun _ => Nat.le_refl _, fun hr => hr⟩) ?_
      refine Ok.store_bind (hT _ ⟨rfl, fun _ => Nat.le_refl _, fun _ => Nat.mod_lt _ mmpos⟩) ?_
      refine Ok.store_bind (hT _ ⟨rfl, hsub, fun _ => Nat.mod_lt _ mmpos⟩) ?_
      apply Ok.pure
      have hrl : r.r < r.mm := by rw [h2]; exact Nat.mod_lt _ mmpos
      simp [RdSt.deliver, advanced, hf, layout, Shr.consumed]
      refine ⟨?_, ?_⟩
      · simp only [List.length_cons] at h1
        have hcnt := hC.cnt; simp only [List.length_cons] at hcnt
        rw [wsub_eq (by omega) (by rw [W_val]; omega)]
      · rw [wadd_eq (by rw [W_val]; omega)]
    · obtain ⟨h1, h2, h3, h4⟩ := h.farm hf
      simp only [if_true]
      apply Ok.pure
      simp only [List.length_cons] at h4
      simp [RdSt.deliver, advanced, hf, layout, Shr.consumed]
      rw [wadd_eq (by omega)]
  by_cases h0 : mi.l2 ≠ 0
  · simp only [if_pos h0]
    refine Ok.lift_bind rd2 ?_
    refine Ok.lift_bind hw2 ?_
    exact hcont _ rfl
  · simp only [if_neg h0]
    refine Ok.pure_bind ?_
    refine hcont _ ?_
    rw [List.take_of_length_le (by omega)]

theorem wsub_wsub (a b c : Nat) : wsub (wsub a b) c = wsub a (b + c) := by
  unfold wsub; rw [W_val]; omega

theorem consumed_consumed {r : Ring} (k k' z z' : Nat) :
    consumed (consumed r k z) k' z' = consumed r (k + k') (z + z') := by
  unfold consumed
  cases hf : r.gflags.has SHR_FARM
  · simp [hf, wsub_wsub, Nat.add_assoc, Nat.sub_sub]
  · simp [hf]

theorem consumed_zero {r : Ring} (hu : r.u < W) (hr : r.r < r.mm) : consumed r 0 0 = r := by
  unfold consumed
  split
  · rfl
  · have : wsub r.u 0 = r.u := by unfold wsub; rw [W_val] at *; omega
    simp [this, Nat.mod_eq_of_lt hr]

theorem consumed_gflags {r : Ring} (k z : Nat) : (consumed r k z).gflags = r.gflags := by
  unfold consumed; split <;> rfl

theorem advanced_advanced {r : Ring} (c : RCur) (k k' z : Nat) :
    advanced (consumed r k z) (advanced r c k) k' = advanced r c (k + k') := by
  unfold advanced
  rw [consumed_gflags]
  cases hf : r.gflags.has SHR_FARM <;> simp [Nat.add_assoc]

theorem advanced_zero {r : Ring} (c : RCur) : advanced r c 0 = c := by
  unfold advanced; split <;> rfl

theorem deliver_deliver {r : Ring} {st : RdSt} {A B : List Msg} (z : Nat)
    (hb : st.off + bytesOf A + bytesOf B ≤ st.buf.length) :
    (st.deliver r A).deliver (consumed r A.length z) B = st.deliver r (A ++ B) := by
  unfold RdSt.deliver
  simp only [advanced_advanced, List.length_append, bytesOf_append, List.flatten_append, layout_append]
  rw [← flatten_length A, put_put (by rw [flatten_length, flatten_length]; exact hb)]
  simp [Nat.add_assoc, Nat.sub_sub]

/-- The copy loop delivers the longest prefix that fits, and reports whether messages remain. -/
theorem readLoop_spec : ∀ (niov : Nat) {r : Ring} {st : RdSt} {gr : Nat} {b : Msg} {U : List Msg}
    {mi : MsgInfo}, RView r st.cur gr (b :: U) → InfoFor r b mi →
    st.off + st.len ≤ st.buf.length → st.buf.length < W → st.nr + st.len < W →
    (r.gflags.has SHR_FARM = false → r.r < r.mm) → ∀ (T : Ring → Prop), (∀ s, ReadPt r (bytesOf (b :: U)) s → T s) →
    Ok (readLoop niov st mi) r T (fun x r' =>
      x.1 = st.deliver r ((b :: U).take (takeCount (b :: U) st.len niov)) ∧
      x.2 = decide ((b :: U).drop (takeCount (b :: U) st.len niov) ≠ []) ∧
      r' = consumed r (takeCount (b :: U) st.len niov)
        (bytesOf ((b :: U).take (takeCount (b :: U) st.len niov)))) := by
  intro niov
  induction niov with
  | zero =>
    intro r st gr b U mi h hi hbuf hbl hnr hr T hT
    have hc0 : consumed r 0 0 = r := by
      cases hf : r.gflags.has SHR_FARM
      · exact consumed_zero h.ult (hr hf)
      · unfold consumed; simp [hf]
    apply Ok.pure
    simp [takeCount, RdSt.deliver, layout, put_nil, advanced_zero, hc0]
  | succ niov ih =>
    intro r st gr b U mi h hi hbuf hbl hnr hr T hT
    have hc0 : consumed r 0 0 = r := by
      cases hf : r.gflags.has SHR_FARM
      · exact consumed_zero h.ult (hr hf)
      · unfold consumed; simp [hf]
    unfold readLoop
    have hbn : b.length ≤ r.n := by
      obtain ⟨p0, hC⟩ := h.core
      have := hC.tot; simp at this; omega
    have hnb : r.n < W := by
      obtain ⟨p0, hC⟩ := h.core
      have := hC.nbd; rw [SSIZE_MAX_val] at this; rw [W_val]; omega
    rw [wadd_eq (by rw [hi.len]; omega), hi.len]
    by_cases hfit : b.length > st.len
    · rw [if_pos hfit]
      apply Ok.pure
      have : takeCount (b :: U) st.len (niov + 1) = 0 := by
        unfold takeCount; rw [if_neg (by omega)]
      simp [this, RdSt.deliver, layout, put_nil, advanced_zero, hc0]
    · rw [if_neg hfit]
      apply Ok.bind
      have hbU : bytesOf (b :: U) = b.length + bytesOf U := by simp
      refine (readOne_spec h hi (by omega) hbuf hbl hnr T
        (fun s hs => hT s ⟨hs.eq, fun hle => hs.u (by omega), hs.r⟩)).mono (fun _ h => h) ?_
      rintro st' r' ⟨rfl, rfl⟩
      apply Ok.get_bind
      have htc : takeCount (b :: U) st.len (niov + 1) = takeCount U (st.len - b.length) niov + 1 := by
        rw [takeCount]; rw [if_pos (by omega)]
      have hv := h.consumed (k := 1) (by simp) b.length
      simp only [List.drop_succ_cons, List.drop_zero] at hv
      have hcur : (st.deliver r [b]).cur = advanced r st.cur 1 := rfl
      rw [hcur]
      obtain ⟨hnil, hcons⟩ := next_msg_info_spec hv
      cases hU : U with
      | nil =>
        subst hU
        refine Ok.lift_bind (hnil rfl) ?_
        apply Ok.pure
        have : takeCount ([] : List Msg) (st.len - b.length) niov = 0 := by simp [takeCount]
        rw [htc, this]
        simp [RdSt.deliver]
      | cons b' U' =>
        obtain ⟨mi', hnm, hinf⟩ := hcons b' U' hU
        rw [hU] at hv htc
        refine Ok.lift_bind hnm ?_
        dsimp only
        have hself : ({ st.deliver r [b] with cur := advanced r st.cur 1 } : RdSt) = st.deliver r [b] := rfl
        rw [hself]
        have hbl' : (put st.buf st.off b).length = st.buf.length := put_length (by omega)
        have := ih (r := consumed r 1 b.length) (st := st.deliver r [b]) (gr := gr + 1) (b := b')
          (U := U') (mi := mi') hv hinf (by simp [RdSt.deliver, hbl']; omega)
          (by simp [RdSt.deliver, hbl']; omega) (by simp [RdSt.deliver]; omega) (by
            intro hf
            rw [consumed_gflags] at hf
            unfold consumed
            simp only [hf, Bool.false_eq_true, if_false]
            obtain ⟨p0, hC⟩ := h.core
            exact Nat.mod_lt _ hC.mmpos) T (fun s hs => hT s (by
              have hult := h.ult
              obtain ⟨s1, s2, s3⟩ := hs
              unfold consumed at s1 s2 s3
              cases hf : r.gflags.has SHR_FARM
              · simp only [hf, Bool.false_eq_true, if_false] at s1 s2 s3
                refine ⟨s1, fun hle => ?_, fun hlt => s3 (Nat.mod_lt _ (by omega))⟩
                rw [hbU, hU] at hle
                rw [wsub_eq (by omega) (by omega)] at s2
                have := s2 (by omega); omega
              · simp only [hf, if_true] at s1 s2 s3
                exact ⟨s1, fun hle => s2 (by rw [hbU, hU] at hle; omega), s3⟩))
        refine this.mono (fun _ h => h) ?_
        rintro ⟨x1, x2⟩ s ⟨e1, e2, e3⟩
        have hl : (st.deliver r [b]).len = st.len - b.length := by simp [RdSt.deliver]
        rw [hl] at e1 e2 e3
        rw [htc]
        generalize hk : takeCount (b' :: U') (st.len - b.length) niov = k at *
        have hkb := takeCount_bytes (b' :: U') (st.len - b.length) niov
        rw [hk] at hkb
        refine ⟨?_, ?_, ?_⟩
        · rw [e1]
          have := deliver_deliver (r := r) (st := st) (A := [b]) (B := (b' :: U').take k) b.length
            (by simp; omega)
          simp only [List.length_cons, List.length_nil, Nat.zero_add] at this
          rw [this]; rfl
        · rw [e2]; rfl
        · rw [e3, consumed_consumed]
          simp [Nat.add_comm]

end Shr
