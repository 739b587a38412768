import Verif.Spec.Consistent
import Verif.Proof.Crash
/-! # A consistent ring represents a specification state -/
namespace Shr

theorem flatten_idx : ∀ (P : List Msg) (t : Nat) (x : Byte), P.flatten[t]? = some x →
    ∃ j b t', P[j]? = some b ∧ b[t']? = some x ∧ t = bytesOf (P.take j) + t' := by
  intro P
  induction P with
  | nil => intro t x h; simp at h
  | cons b bs ih =>
    intro t x h
    rw [List.flatten_cons] at h
    by_cases ht : t < b.length
    · rw [List.getElem?_append_left ht] at h
      exact ⟨0, b, t, rfl, h, by simp⟩
    · rw [List.getElem?_append_right (by omega)] at h
      obtain ⟨j, c, t', h1, h2, h3⟩ := ih _ _ h
      exact ⟨j + 1, c, t', by simpa using h1, h2, by simp only [List.take_succ_cons, bytesOf_cons]; omega⟩

theorem Ring.msgAt_length (r : Ring) (s : Slot) : (r.msgAt s).length = s.len := by
  simp [Ring.msgAt]

theorem Ring.present_get {r : Ring} {j : Nat} (h : j < r.mp) : r.presentMsgs[j]? = some (r.msgAt (r.slotAt j)) := by
  unfold Ring.presentMsgs Ring.msgsFrom
  rw [List.getElem?_map, List.getElem?_range h]
  rfl

theorem Ring.present_length (r : Ring) : r.presentMsgs.length = r.mp := by
  simp [Ring.presentMsgs, Ring.msgsFrom]

theorem Ring.present_bytes (r : Ring) {j : Nat} (h : j ≤ r.mp) : bytesOf (r.presentMsgs.take j) = r.lensTo j := by
  unfold Ring.presentMsgs Ring.msgsFrom Ring.lensTo bytesOf
  rw [← List.map_take, List.take_range, Nat.min_eq_left h, List.map_map]
  congr 1
  apply List.map_congr_left
  intro i _
  exact Ring.msgAt_length _ _

theorem Ring.lensTo_mono (r : Ring) {i j : Nat} (h : i ≤ j) : r.lensTo i ≤ r.lensTo j := by
  obtain ⟨k, rfl⟩ : ∃ k, j = i + k := ⟨j - i, by omega⟩
  unfold Ring.lensTo
  rw [List.range_add, List.map_append, List.sum_append]
  omega

/-- The specification state of a consistent ring: messages already read and forgotten are not recorded,
they are stood for by empty ones. -/
def specOf (r : Ring) (st : SStat) (hs : Nat → Life SHandle (List Msg)) : Spec where
  cap := r.n
  maxm := r.mm
  gflags := r.gflags
  tlog := (List.replicate r.e [] ++ r.presentMsgs).map fun m => (0, m)
  base := r.e
  first := r.e + (r.mp - r.m)
  st := st
  app := r.app
  hs := hs

/-- Sizes of the regions of a ring file that passed the checks of `shr_open`. -/
structure Sized (r : Ring) : Prop where
  nbd : r.n ≤ SSIZE_MAX
  mmbd : r.mm ≤ SSIZE_MAX
  d : r.d.length = r.n
  mv : r.mv.length = r.mm
  app : r.app_len = r.app.length

theorem specOf_log (r : Ring) (st : SStat) (hs : Nat → Life SHandle (List Msg)) :
    (specOf r st hs).log = List.replicate r.e [] ++ r.presentMsgs := by
  simp [specOf, Spec.log, Function.comp_def]

theorem specOf_retained (r : Ring) (st : SStat) (hs : Nat → Life SHandle (List Msg)) :
    (specOf r st hs).retained = r.presentMsgs := by
  unfold Spec.retained
  rw [specOf_log]
  show List.drop r.e _ = _
  rw [List.drop_append_of_le_length (by simp)]
  simp

theorem Ring.Consistent.geo {r : Ring} (h : r.Consistent) (hz : Sized r) :
    GeoAt r r.e ((r.i + r.n - r.lensTo r.mp) % r.n) r.presentMsgs := by
  have hn : 0 < r.n := Nat.lt_of_le_of_lt (Nat.zero_le _) h.i
  have hm : 0 < r.mm := Nat.lt_of_le_of_lt (Nat.zero_le _) h.e
  have hfit := h.fit; have hi := h.i
  have htot : bytesOf r.presentMsgs = r.lensTo r.mp := by
    have := r.present_bytes (Nat.le_refl r.mp)
    rwa [← r.present_length, List.take_length, r.present_length] at this
  have hslot : ∀ {j b}, r.presentMsgs[j]? = some b → j < r.mp ∧ b = r.msgAt (r.slotAt j) := by
    intro j b hj
    have hlt := getElem?_lt hj
    rw [r.present_length] at hlt
    rw [Ring.present_get hlt] at hj
    exact ⟨hlt, (Option.some.inj hj).symm⟩
  have hpos : ∀ j < r.mp, (r.slotAt j).pos = ((r.i + r.n - r.lensTo r.mp) % r.n + r.lensTo j) % r.n := by
    intro j hj
    have := r.lensTo_mono (Nat.le_of_lt hj)
    rw [h.pos j hj, mod_add_mod_left]
    congr 1; omega
  refine ⟨⟨hn, hz.nbd, hm, hz.mmbd, hz.d, hz.mv, ?_, by rw [htot]; exact hfit, by rw [r.present_length]; exact h.mp,
    Nat.mod_lt _ hn, ?_, ?_⟩, ?_⟩
  · intro b hb
    obtain ⟨j, hj⟩ := List.mem_iff_getElem?.mp hb
    obtain ⟨hlt, rfl⟩ := hslot hj
    have := h.len j hlt
    intro e
    have h2 := r.msgAt_length (r.slotAt j)
    rw [e] at h2; simp at h2; omega
  · intro j b hj
    obtain ⟨hlt, rfl⟩ := hslot hj
    rw [r.msgAt_length, r.present_bytes (Nat.le_of_lt hlt), ← hpos j hlt]
    show _ = some (r.slotAt j)
    unfold Ring.slotAt
    have : (r.e + j) % r.mm < r.mv.length := by rw [hz.mv]; exact Nat.mod_lt _ hm
    rw [List.getD_eq_getElem?_getD, List.getElem?_eq_getElem this]
    rfl
  · intro t x ht
    obtain ⟨j, b, t', h1, h2, h3⟩ := flatten_idx _ _ _ ht
    obtain ⟨hlt, rfl⟩ := hslot h1
    rw [r.present_bytes (Nat.le_of_lt hlt)] at h3
    have ht' := getElem?_lt h2
    rw [r.msgAt_length] at ht'
    unfold Ring.msgAt at h2
    rw [List.getElem?_map, List.getElem?_range ht', hpos j hlt, Option.map_some, mod_add_mod_left] at h2
    have e : (r.i + r.n - r.lensTo r.mp) % r.n + r.lensTo j + t' = (r.i + r.n - r.lensTo r.mp) % r.n + t := by omega
    rw [e] at h2
    have hb : ((r.i + r.n - r.lensTo r.mp) % r.n + t) % r.n < r.d.length := by rw [hz.d]; exact Nat.mod_lt _ hn
    rw [List.getElem?_eq_getElem hb]
    simp only [List.getD_eq_getElem?_getD, List.getElem?_eq_getElem hb, Option.getD_some] at h2
    exact h2
  · rw [htot, mod_add_mod_left]
    have : r.i + r.n - r.lensTo r.mp + r.lensTo r.mp = r.i + r.n := by omega
    rw [this, Nat.add_mod_right, Nat.mod_eq_of_lt hi]

/-- A consistent ring (not a farm) represents a specification state. -/
theorem Ring.Consistent.rel {r : Ring} (h : r.Consistent) (hz : Sized r) (hf : r.gflags.has SHR_FARM = false)
    {st : SStat} (hst : r.stat = st.toStat) (hs : Nat → Life SHandle (List Msg)) : RingRel r (specOf r st hs) := by
  have hm := h.m
  have he : (specOf r st hs).first - (specOf r st hs).base = r.mp - r.m := by
    show r.e + (r.mp - r.m) - r.e = _; omega
  refine ⟨?_, Nat.le_add_right _ _, ?_, rfl, rfl, rfl, rfl, hz.app, hst, ?_⟩
  · rw [specOf_retained, he]
    refine ⟨⟨_, h.geo hz⟩, ?_, ?_, ?_, ?_, ?_, ?_, h.r⟩
    · rw [r.present_length]; omega
    · rw [r.present_length]
    · rw [r.present_length]; omega
    · have h1 := bytesOf_take_add_drop r.presentMsgs (r.mp - r.m)
      have h2 := r.present_bytes (Nat.sub_le r.mp r.m)
      have h3 := r.present_bytes (Nat.le_refl r.mp)
      rw [← r.present_length, List.take_length, r.present_length] at h3
      rw [h.u]; omega
    · show r.e = r.e % r.mm; rw [Nat.mod_eq_of_lt h.e]
    · intro hh; rw [hf] at hh; cases hh
  · rw [specOf_log]
    show r.e + (r.mp - r.m) ≤ _
    simp [r.present_length]
  · intro hh
    have : (specOf r st hs).farm = r.gflags.has SHR_FARM := rfl
    rw [this, hf] at hh; cases hh

/-- Conversely, rings that represent messages are consistent. -/
theorem Rep.consistent {r : Ring} {gq nread : Nat} {P : List Msg} (h : Rep r gq nread P) : r.Consistent := by
  obtain ⟨p0, hg⟩ := h.geo
  have hC := hg.toCore
  have hmp := h.mp; have hm := h.m; have hnr := h.nr
  have hsl : ∀ {j b}, P[j]? = some b → r.slotAt j = ⟨(p0 + bytesOf (P.take j)) % r.n, b.length⟩ := by
    intro j b hj
    have := hC.slots j b hj
    unfold Ring.slotAt
    rw [h.e, mod_add_mod_left, List.getD_eq_getElem?_getD, this]; rfl
  have hlens : ∀ j ≤ r.mp, r.lensTo j = bytesOf (P.take j) := by
    intro j
    induction j with
    | zero => intro _; simp [Ring.lensTo]
    | succ j ih =>
      intro hj
      have hlt : j < P.length := by omega
      have e := hsl (List.getElem?_eq_getElem hlt)
      unfold Ring.lensTo at ih ⊢
      rw [List.range_succ, List.map_append, List.sum_append, ih (by omega), List.take_add_one,
        List.getElem?_eq_getElem hlt, bytesOf_append]
      simp [e, bytesOf]
  have hfull : r.lensTo r.mp = bytesOf P := by
    rw [hlens _ (Nat.le_refl _), hmp, List.take_length]
  have hn := hC.npos; have hmmp := hC.mmpos; have htot := hC.tot; have hp0 := hC.p0lt
  have hms : r.mp - r.m = nread := by omega
  refine ⟨by rw [h.e]; exact Nat.mod_lt _ hmmp, by rw [hg.ieq]; exact Nat.mod_lt _ hn, by rw [hmp]; exact hC.cnt,
    by omega, ?_, by rw [hfull]; exact htot, ?_, ?_, ?_⟩
  · intro j hj
    have hlt : j < P.length := by omega
    rw [hsl (List.getElem?_eq_getElem hlt)]
    exact List.length_pos_iff.mpr (hC.ne _ (List.getElem_mem hlt))
  · intro j hj
    have hlt : j < P.length := by omega
    have h1 := bytesOf_take_add_drop P j
    rw [hsl (List.getElem?_eq_getElem hlt), hfull, hlens j (by omega), hg.ieq]
    show (p0 + bytesOf (P.take j)) % r.n = _
    have e : p0 + bytesOf P + r.n - (bytesOf P - bytesOf (P.take j)) =
      p0 + bytesOf (P.take j) + r.n := by omega
    by_cases hc : p0 + bytesOf P < r.n
    · rw [Nat.mod_eq_of_lt hc, e, Nat.add_mod_right]
    · rw [mod_two (x := p0 + bytesOf P) (by omega), if_neg hc]
      have e2 : p0 + bytesOf P - r.n + r.n - (bytesOf P - bytesOf (P.take j)) =
        p0 + bytesOf (P.take j) := by omega
      rw [e2]
  · rw [h.r, hms, h.e, mod_add_mod_left]
  · rw [hms, hfull, hlens _ (by omega), h.u]
    have := bytesOf_take_add_drop P nread; omega

theorem RingRel.consistent {r : Ring} {sp : Spec} (h : RingRel r sp) : r.Consistent := h.rep.consistent

end Shr
