import Verif.Proof.Geo
import Verif.Proof.Hoare
namespace Shr

theorem memcpy_bind {β : Type} {off : Nat} {src : List Byte} {r : Ring} {f : Unit → M Ring β}
    {T : Ring → Prop} {Q : β → Ring → Prop} (h : off + src.length ≤ r.d.length)
    (hT : ∀ k, k ≤ src.length → T { r with d := put r.d off (src.take k) })
    (hr : Ok (f ()) { r with d := put r.d off src } T Q) :
    Ok (memcpyShared Ring.d (fun d r => { r with d := d }) off src >>= f) r T Q := by
  apply Ok.bind
  refine ⟨?_, ?_⟩ <;> rw [memcpyShared_ok h]
  · intro t ht
    simp at ht
    obtain ⟨k, hk, rfl⟩ := ht
    exact hT k (by omega)
  · exact ⟨_, _, rfl, hr⟩

/-- The bytes after storing a prefix of a new message. -/
theorem copyOne_spec {r : Ring} {gq p0 : Nat} {P : List Msg} {b : Msg} (h : GeoAt r gq p0 P)
    (hb : b ≠ []) (hbytes : bytesOf P + b.length ≤ r.n) (hcnt : P.length + 1 ≤ r.mm) :
    Ok (copyOne b ((gq + P.length) % r.mm)) r (fun s => Frame r s ∧ Core s gq p0 P)
      (fun p' r' => p' = (gq + P.length + 1) % r.mm ∧ GeoAt r' gq p0 (P ++ [b]) ∧ Frame r r') := by
  have hblen : 0 < b.length := List.length_pos_iff.mpr hb
  obtain ⟨npos, nbd, mmpos, mmbd, dlen, mvlen, ne, tot, cnt, p0lt, slots, data⟩ := h.toCore
  have hC := h.toCore
  have ieq := h.ieq
  generalize hp : (gq + P.length) % r.mm = p
  have hplt : p < r.mm := by rw [← hp]; exact Nat.mod_lt _ mmpos
  have hilt : r.i < r.n := by rw [ieq]; exact Nat.mod_lt _ npos
  have nbd' := nbd; have mmbd' := mmbd
  rw [SSIZE_MAX_val] at nbd' mmbd'
  have hsum : wadd r.i b.length = r.i + b.length := wadd_eq (by rw [W_val]; omega)
  have hpp : (if wadd p 1 = r.mm then 0 else wadd p 1) = (gq + P.length + 1) % r.mm := by
    rw [wadd_eq (by rw [W_val]; omega), succ_mod hplt, ← hp, mod_add_mod_left]
  -- slots of the old messages are different from p
  have hpne : ∀ j, j < P.length → p ≠ (gq + j) % r.mm := by
    intro j hj e
    rw [← hp] at e
    have := mod_inj (by omega) (by omega) e
    omega
  -- any partial change
  have part : ∀ (d : List Byte) (mv : List Slot), d.length = r.d.length → mv.length = r.mv.length →
      (∀ t, t < bytesOf P → d[(p0 + t) % r.n]? = r.d[(p0 + t) % r.n]?) →
      (∀ j, j < P.length → mv[(gq + j) % r.mm]? = r.mv[(gq + j) % r.mm]?) →
      Frame r { r with d := d, mv := mv } ∧ Core { r with d := d, mv := mv } gq p0 P := by
    intro d mv h1 h2 h3 h4
    exact ⟨rfl, hC.of_agree (s := { r with d := d, mv := mv }) rfl h1 h2 h3 h4⟩
  let mv1 := r.mv.modify p fun s => { s with pos := r.i }
  let mv2 := mv1.modify p fun s => { s with len := b.length }
  have hmv1l : mv1.length = r.mv.length := by simp [mv1]
  have hmv2l : mv2.length = r.mv.length := by simp [mv2, hmv1l]
  have hmv1 : ∀ j, j < P.length → mv1[(gq + j) % r.mm]? = r.mv[(gq + j) % r.mm]? := by
    intro j hj; exact List.modify_getElem?_ne _ _ (hpne j hj)
  have hmv2 : ∀ j, j < P.length → mv2[(gq + j) % r.mm]? = r.mv[(gq + j) % r.mm]? := by
    intro j hj; rw [← hmv1 j hj]; exact List.modify_getElem?_ne _ _ (hpne j hj)
  have hmv2p : mv2[p]? = some ⟨r.i, b.length⟩ := by
    simp [mv2, mv1, mvlen, hplt]
  -- final state
  have fin : ∀ d : List Byte, d.length = r.n →
      (∀ t, t < bytesOf P → d[(p0 + t) % r.n]? = r.d[(p0 + t) % r.n]?) →
      (∀ t, t < b.length → d[(r.i + t) % r.n]? = b[t]?) →
      GeoAt { r with d := d, mv := mv2, i := (r.i + b.length) % r.n } gq p0 (P ++ [b]) := by
    intro d h1 h2 h3
    have hc := (part d mv2 (by rw [h1, dlen]) hmv2l h2 hmv2).2
    refine ⟨⟨npos, nbd, mmpos, mmbd, h1, by simp [hmv2l, mvlen], ?_, by simpa using hbytes,
      by simpa using hcnt, p0lt, ?_, ?_⟩, ?_⟩
    · intro x hx; simp at hx; rcases hx with hx | rfl
      · exact ne x hx
      · exact hb
    · intro j x hj
      rcases Nat.lt_or_ge j P.length with hlt | hge
      · rw [List.getElem?_append_left hlt] at hj
        have := hc.slots j x hj
        rw [List.take_append_of_le_length (by omega)]
        exact this
      · rw [List.getElem?_append_right hge] at hj
        have hj0 : j = P.length := by
          rcases Nat.lt_or_ge (j - P.length) 1 with h' | h'
          · omega
          · rw [List.getElem?_eq_none (by simpa using h')] at hj; simp at hj
        subst hj0
        simp at hj; subst hj
        simp only [List.take_left]
        show mv2[(gq + P.length) % r.mm]? = _
        rw [hp, hmv2p, ieq]
    · intro t x ht
      rw [List.flatten_append] at ht
      rcases Nat.lt_or_ge t (bytesOf P) with hlt | hge
      · rw [List.getElem?_append_left (by rw [flatten_length]; exact hlt)] at ht
        exact hc.data t x ht
      · rw [List.getElem?_append_right (by rw [flatten_length]; exact hge), flatten_length] at ht
        simp at ht
        have htl : t - bytesOf P < b.length := by
          rcases Nat.lt_or_ge (t - bytesOf P) b.length with h' | h'
          · exact h'
          · rw [List.getElem?_eq_none h'] at ht; simp at ht
        show d[(p0 + t) % r.n]? = _
        rw [← ht, ← h3 _ htl, ieq, mod_add_mod_left]
        congr 2; omega
    · show (r.i + b.length) % r.n = _
      rw [ieq, mod_add_mod_left, bytesOf_append, Nat.add_assoc]; simp
  unfold copyOne
  apply Ok.assert_bind (decide_eq_true hblen)
  apply Ok.get_bind
  rw [mvlen, if_pos hplt]
  refine Ok.store_bind ⟨Frame.refl r, hC⟩ ?_
  refine Ok.store_bind ?_ ?_
  · exact part r.d mv1 rfl hmv1l (fun _ _ => rfl) hmv1
  apply Ok.get_bind
  have hold := fun t ht => old_pos (t := t) (T := bytesOf P) (len := b.length) p0lt ht hbytes
  rw [← ieq] at hold
  show Ok _ { r with mv := mv2 } _ _
  dsimp only
  simp only [hsum]
  by_cases hw : r.i + b.length > r.n
  · have hl1 : wsub r.n r.i = r.n - r.i := wsub_eq (by omega) (by rw [W_val]; omega)
    have hl2 : wsub b.length (r.n - r.i) = b.length - (r.n - r.i) :=
      wsub_eq (by omega) (by rw [W_val]; omega)
    simp only [if_pos hw, hl1, hl2]
    rw [if_pos (by omega)]
    generalize hk : r.n - r.i = k
    have hput1 : ∀ src : List Byte, src.length ≤ k → ∀ t, t < bytesOf P →
        (put r.d r.i src)[(p0 + t) % r.n]? = r.d[(p0 + t) % r.n]? := by
      intro src hs t ht
      have := (hold t ht).2 hw
      exact put_getElem?_out (by omega) (by omega)
    have hput1l : ∀ src : List Byte, src.length ≤ k → (put r.d r.i src).length = r.d.length := by
      intro src hs; exact put_length (by omega)
    have htk : ∀ j, ((b.take k).take j).length ≤ k := by intro j; simp; omega
    have htk' : (b.take k).length = k := by simp; omega
    apply memcpy_bind
    · simp [dlen]; omega
    · intro j hj
      exact part _ mv2 (hput1l _ (htk j)) hmv2l (hput1 _ (htk j)) hmv2
    · rw [if_pos (by omega)]
      have hsrc : (b.drop k).take (b.length - k) = b.drop k := by
        rw [List.take_of_length_le (by simp)]
      rw [hsrc]
      generalize hd1 : put r.d r.i (b.take k) = d1
      have hd1l : d1.length = r.n := by rw [← hd1, hput1l _ (by omega), dlen]
      have hd1o : ∀ t, t < bytesOf P → d1[(p0 + t) % r.n]? = r.d[(p0 + t) % r.n]? := by
        rw [← hd1]; exact hput1 _ (by omega)
      have hput2 : ∀ src : List Byte, src.length ≤ b.length - k → ∀ t, t < bytesOf P →
          (put d1 0 src)[(p0 + t) % r.n]? = r.d[(p0 + t) % r.n]? := by
        intro src hs t ht
        have := (hold t ht).2 hw
        rw [put_getElem?_out (by omega) (by omega)]
        exact hd1o t ht
      apply memcpy_bind
      · simp [hd1l]; omega
      · intro j hj
        have : ((b.drop k).take j).length ≤ b.length - k := by simp; omega
        exact part _ mv2 (by dsimp only; rw [put_length (by omega), hd1l, dlen]) hmv2l (hput2 _ this) hmv2
      · rw [if_neg (by omega)]
        have hdl : (b.drop k).length = b.length - k := by simp
        have hfl : (put d1 0 (b.drop k)).length = r.n := by rw [put_length (by omega), hd1l]
        refine Ok.store_bind ?_ ?_
        · exact part _ mv2 (by dsimp only; rw [hfl, dlen]) hmv2l (hput2 _ (by omega)) hmv2
        apply Ok.get_bind
        apply Ok.pure
        dsimp only
        rw [hpp, hsum]
        refine ⟨rfl, fin _ hfl (hput2 _ (by omega)) ?_, rfl⟩
        intro t ht
        rw [mod_two (by omega)]
        split
        · rw [put_getElem?_out (by omega) (by omega), ← hd1, put_getElem?_in (by omega) (by omega)]
          rw [List.getElem?_take, if_pos (by omega)]
        · have : r.i + t - r.n = 0 + (t - k) := by omega
          rw [this, put_getElem?_in (by omega) (by omega), List.getElem?_drop]
          congr 1; omega
  · have hwn : r.i + b.length ≤ r.n := by omega
    simp only [if_neg hw]
    rw [if_pos (Nat.le_refl _), List.take_length]
    have hput1 : ∀ src : List Byte, src.length ≤ b.length → ∀ t, t < bytesOf P →
        (put r.d r.i src)[(p0 + t) % r.n]? = r.d[(p0 + t) % r.n]? := by
      intro src hs t ht
      have := (hold t ht).1 hwn
      exact put_getElem?_out (by omega) (by omega)
    have hput1l : ∀ src : List Byte, src.length ≤ b.length → (put r.d r.i src).length = r.n := by
      intro src hs; rw [put_length (by omega), dlen]
    apply memcpy_bind
    · simp [dlen]; omega
    · intro j hj
      have : (b.take j).length ≤ b.length := by simp; omega
      exact part _ mv2 (by dsimp only; rw [hput1l _ this, dlen]) hmv2l (hput1 _ this) hmv2
    · rw [if_neg (by simp), if_neg (by omega)]
      refine Ok.store_bind ?_ ?_
      · exact part _ mv2 (by dsimp only; rw [hput1l _ (Nat.le_refl _), dlen]) hmv2l
          (hput1 _ (Nat.le_refl _)) hmv2
      apply Ok.get_bind
      apply Ok.pure
      dsimp only
      rw [hpp, hsum]
      refine ⟨rfl, fin _ (hput1l _ (Nat.le_refl _)) (hput1 _ (Nat.le_refl _)) ?_, rfl⟩
      intro t ht
      rw [Nat.mod_eq_of_lt (by omega), put_getElem?_in (by omega) ht]

/-- A prefix of stored messages is stored. -/
theorem Core.left {r : Ring} {gq p0 : Nat} {P Q : List Msg} (h : Core r gq p0 (P ++ Q)) :
    Core r gq p0 P where
  npos := h.npos
  nbd := h.nbd
  mmpos := h.mmpos
  mmbd := h.mmbd
  dlen := h.dlen
  mvlen := h.mvlen
  ne := fun b hb => h.ne b (by simp [hb])
  tot := by have := h.tot; simp at this; omega
  cnt := by have := h.cnt; simp at this; omega
  p0lt := h.p0lt
  slots := by
    intro j b hj
    have hlt : j < P.length := by
      rcases Nat.lt_or_ge j P.length with h' | h'
      · exact h'
      · rw [List.getElem?_eq_none h'] at hj; simp at hj
    have := h.slots j b (by rw [List.getElem?_append_left hlt]; exact hj)
    rw [List.take_append_of_le_length (by omega)] at this
    exact this
  data := by
    intro t x ht
    apply h.data
    rw [List.flatten_append, List.getElem?_append_left]
    · exact ht
    · rcases Nat.lt_or_ge t P.flatten.length with h' | h'
      · exact h'
      · rw [List.getElem?_eq_none h'] at ht; simp at ht

theorem copyLoop_spec {iov : List Msg} : ∀ {r : Ring} {gq p0 : Nat} {P : List Msg},
    GeoAt r gq p0 P → (∀ b ∈ iov, b ≠ []) → bytesOf P + bytesOf iov ≤ r.n →
    P.length + iov.length ≤ r.mm →
    Ok (copyLoop iov ((gq + P.length) % r.mm)) r (fun s => Frame r s ∧ Core s gq p0 P)
      (fun _ r' => GeoAt r' gq p0 (P ++ iov) ∧ Frame r r') := by
  induction iov with
  | nil =>
    intro r gq p0 P h _ _ _
    exact Ok.pure ⟨by simpa using h, Frame.refl r⟩
  | cons b bs ih =>
    intro r gq p0 P h hne hby hcn
    simp at hby hcn
    unfold copyLoop
    apply Ok.bind
    refine (copyOne_spec h (hne b (by simp)) (by omega) (by omega)).mono (fun _ h => h) ?_
    rintro p' r' ⟨rfl, hg, hf⟩
    have := ih (r := r') (P := P ++ [b]) hg (fun x hx => hne x (by simp [hx]))
      (by rw [hf.n]; simp; omega) (by rw [hf.mm]; simp; omega)
    rw [hf.mm] at this
    simp only [List.length_append, List.length_cons, List.length_nil, Nat.zero_add,
      List.append_assoc, List.cons_append, List.nil_append] at this
    rw [Nat.add_assoc]
    refine this.mono ?_ ?_
    · rintro s ⟨h1, h2⟩
      refine ⟨hf.trans h1, ?_⟩
      exact h2.left
    · rintro _ s ⟨h1, h2⟩
      exact ⟨h1, hf.trans h2⟩
end Shr
