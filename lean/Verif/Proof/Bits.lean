import Verif.Model.Api
/-! # Flag words -/
namespace Shr

theorem one_shift (k j : Nat) : (1#32 <<< k).getLsbD j = decide (j < 32 ∧ j = k) := by
  rw [BitVec.getLsbD_shiftLeft, BitVec.getLsbD_one]
  by_cases h1 : j < 32 <;> by_cases h2 : j < k <;> by_cases h3 : j = k <;> simp [h1, h2, h3] <;> omega

theorem has_shift (f : Flags) (k : Nat) (hk : k < 32) : Flags.has f (1#32 <<< k) = f.getLsbD k := by
  unfold Flags.has
  cases h : f.getLsbD k
  · have : f &&& (1#32 <<< k) = 0#32 := by
      apply BitVec.eq_of_getLsbD_eq
      intro i hi
      rw [BitVec.getLsbD_and, one_shift]
      by_cases e : i = k
      · subst e; simp [h]
      · simp [e]
    rw [this]; rfl
  · rw [bne_iff_ne]
    intro h0
    have := congrArg (fun x => x.getLsbD k) h0
    simp only [BitVec.getLsbD_and, one_shift, h] at this
    simp [hk] at this

theorem has_KEEPEXIST (f : Flags) : f.has SHR_KEEPEXIST = f.getLsbD 0 := has_shift f 0 (by decide)
theorem has_DROP (f : Flags) : f.has SHR_DROP = f.getLsbD 1 := has_shift f 1 (by decide)
theorem has_APPDATA (f : Flags) : f.has SHR_APPDATA_1 = f.getLsbD 2 := has_shift f 2 (by decide)
theorem has_FARM (f : Flags) : f.has SHR_FARM = f.getLsbD 3 := has_shift f 3 (by decide)
theorem has_MAXMSGS (f : Flags) : f.has SHR_MAXMSGS_2 = f.getLsbD 4 := has_shift f 4 (by decide)
theorem has_SYNC (f : Flags) : f.has SHR_SYNC = f.getLsbD 5 := has_shift f 5 (by decide)
theorem has_MLOCK (f : Flags) : f.has SHR_MLOCK = f.getLsbD 6 := has_shift f 6 (by decide)
theorem has_RDONLY (f : Flags) : f.has SHR_RDONLY = f.getLsbD 13 := has_shift f 13 (by decide)
theorem has_WRONLY (f : Flags) : f.has SHR_WRONLY = f.getLsbD 14 := has_shift f 14 (by decide)
theorem has_NONBLOCK (f : Flags) : f.has SHR_NONBLOCK = f.getLsbD 15 := has_shift f 15 (by decide)
theorem has_BUFFERED (f : Flags) : f.has SHR_BUFFERED = f.getLsbD 16 := has_shift f 16 (by decide)

theorem clear_shift (f : Flags) (k j : Nat) (hj : j < 32) :
    (Flags.clear f (1#32 <<< k)).getLsbD j = (f.getLsbD j && decide (j ≠ k)) := by
  unfold Flags.clear
  rw [BitVec.getLsbD_and, BitVec.getLsbD_not, one_shift]
  simp [hj]

theorem set_shift (f : Flags) (k j : Nat) (hj : j < 32) :
    (Flags.set f (1#32 <<< k)).getLsbD j = (f.getLsbD j || decide (j = k)) := by
  unfold Flags.set
  rw [BitVec.getLsbD_or, one_shift]
  simp [hj]

theorem clear_BUFFERED (f : Flags) (j : Nat) (hj : j < 32) :
    (f.clear SHR_BUFFERED).getLsbD j = (f.getLsbD j && decide (j ≠ 16)) := clear_shift f 16 j hj
theorem clear_NONBLOCK (f : Flags) (j : Nat) (hj : j < 32) :
    (f.clear SHR_NONBLOCK).getLsbD j = (f.getLsbD j && decide (j ≠ 15)) := clear_shift f 15 j hj

theorem clear_set_shift (f : Flags) (k : Nat) (hk : k < 32) (h : f.getLsbD k = true) :
    (f.clear (1#32 <<< k)).set (1#32 <<< k) = f := by
  apply BitVec.eq_of_getLsbD_eq
  intro j hj
  rw [set_shift _ _ _ hj, clear_shift _ _ _ hj]
  by_cases e : j = k
  · subst e; simp [h]
  · simp [e]

theorem clear_set_BUFFERED (f : Flags) (h : f.getLsbD 16 = true) :
    (f.clear SHR_BUFFERED).set SHR_BUFFERED = f := clear_set_shift f 16 (by decide) h
theorem clear_set_NONBLOCK (f : Flags) (h : f.getLsbD 15 = true) :
    (f.clear SHR_NONBLOCK).set SHR_NONBLOCK = f := clear_set_shift f 15 (by decide) h

end Shr
