import Verif.Spec.Queue
/-! # Arithmetic, lists, and lemmas about the specification vocabulary -/
namespace Shr

theorem W_val : W = 18446744073709551616 := by decide
theorem SSIZE_MAX_val : SSIZE_MAX = 9223372036854775807 := by decide

theorem wadd_eq {a b : Nat} (h : a + b < W) : wadd a b = a + b := Nat.mod_eq_of_lt h
theorem wsub_eq {a b : Nat} (h : b ≤ a) (ha : a < W) : wsub a b = a - b := by
  unfold wsub
  rw [Nat.mod_eq_of_lt (a := b) (by omega)]
  have : a + (W - b) = (a - b) + W := by omega
  rw [this, Nat.add_mod_right, Nat.mod_eq_of_lt (by omega)]
theorem wadd_lt (a b : Nat) : wadd a b < W := Nat.mod_lt _ (by decide)
theorem wadd_mod (a b : Nat) : wadd (a % W) b = (a + b) % W := by
  unfold wadd; simp

/-- `x % n` for `x < 2n`. -/
theorem mod_two {x n : Nat} (h : x < 2 * n) : x % n = if x < n then x else x - n := by
  split
  · rename_i h'; exact Nat.mod_eq_of_lt h'
  · rename_i h'
    rw [Nat.mod_eq_sub_mod (by omega), Nat.mod_eq_of_lt (by omega)]

theorem mod_add_mod_left (a b n : Nat) : (a % n + b) % n = (a + b) % n := by
  simp [Nat.add_mod]

theorem mod_inj {g j k n : Nat} (hj : j < n) (hk : k < n) (h : (g + j) % n = (g + k) % n) :
    j = k := by
  have hn : 0 < n := by omega
  rw [← mod_add_mod_left g j, ← mod_add_mod_left g k] at h
  have hg := Nat.mod_lt g hn
  generalize g % n = c at h hg
  rw [mod_two (x := c + j) (by omega), mod_two (x := c + k) (by omega)] at h
  split at h <;> split at h <;> omega

theorem succ_mod {p n : Nat} (h : p < n) : (if p + 1 = n then 0 else p + 1) = (p + 1) % n := by
  rw [mod_two (by omega)]; split <;> split <;> omega

theorem add_succ_mod (g n : Nat) (hn : 0 < n) :
    (if g % n + 1 = n then 0 else g % n + 1) = (g + 1) % n := by
  rw [succ_mod (Nat.mod_lt _ hn), mod_add_mod_left]

/-! ## Lists of messages -/

@[simp] theorem bytesOf_nil : bytesOf [] = 0 := rfl
@[simp] theorem bytesOf_cons (m : Msg) (l : List Msg) : bytesOf (m :: l) = m.length + bytesOf l := by
  simp [bytesOf]
@[simp] theorem bytesOf_append (a b : List Msg) : bytesOf (a ++ b) = bytesOf a + bytesOf b := by
  simp [bytesOf]
theorem flatten_length (l : List Msg) : l.flatten.length = bytesOf l := by
  simp [bytesOf, List.length_flatten]
theorem bytesOf_take_add_drop (l : List Msg) (k : Nat) :
    bytesOf (l.take k) + bytesOf (l.drop k) = bytesOf l := by
  rw [← bytesOf_append, List.take_append_drop]
theorem bytesOf_drop_le (l : List Msg) (k : Nat) : bytesOf (l.drop k) ≤ bytesOf l := by
  have := bytesOf_take_add_drop l k; omega
theorem bytesOf_take_le (l : List Msg) (k : Nat) : bytesOf (l.take k) ≤ bytesOf l := by
  have := bytesOf_take_add_drop l k; omega
theorem bytesOf_drop_anti (l : List Msg) {j k : Nat} (h : j ≤ k) :
    bytesOf (l.drop k) ≤ bytesOf (l.drop j) := by
  have : l.drop k = (l.drop j).drop (k - j) := by rw [List.drop_drop]; congr 1; omega
  rw [this]; exact bytesOf_drop_le _ _
theorem bytesOf_pos {l : List Msg} (hne : ∀ b ∈ l, b ≠ []) (h : l ≠ []) : 0 < bytesOf l := by
  cases l with
  | nil => exact absurd rfl h
  | cons a t =>
    have := hne a (by simp)
    have : 0 < a.length := List.length_pos_iff.mpr this
    simp; omega
theorem length_le_bytesOf {l : List Msg} (hne : ∀ b ∈ l, b ≠ []) : l.length ≤ bytesOf l := by
  induction l with
  | nil => simp
  | cons a t ih =>
    have : 0 < a.length := List.length_pos_iff.mpr (hne a (by simp))
    have := ih fun b hb => hne b (by simp [hb])
    simp; omega

theorem Fits.drop {cap maxm : Nat} {l new : List Msg} (h : Fits cap maxm l new) (k : Nat) :
    Fits cap maxm (l.drop k) new := by
  obtain ⟨h1, h2⟩ := h
  have := bytesOf_drop_le l k
  constructor
  · omega
  · simp; omega

theorem evictCount_le_length (cap maxm : Nat) (new l : List Msg) :
    evictCount cap maxm new l ≤ l.length := by
  induction l with
  | nil => simp [evictCount]
  | cons m ms ih => unfold evictCount; split <;> simp; omega

theorem evictCount_fits {cap maxm : Nat} {new : List Msg} (hb : bytesOf new ≤ cap)
    (hm : new.length ≤ maxm) (l : List Msg) :
    Fits cap maxm (l.drop (evictCount cap maxm new l)) new := by
  induction l with
  | nil => simp [evictCount, Fits]; omega
  | cons m ms ih =>
    unfold evictCount
    split
    · simpa
    · simpa using ih

theorem evictCount_min {cap maxm : Nat} {new l : List Msg} {j : Nat}
    (h : j < evictCount cap maxm new l) : ¬ Fits cap maxm (l.drop j) new := by
  induction l generalizing j with
  | nil => simp [evictCount] at h
  | cons m ms ih =>
    unfold evictCount at h
    split at h
    · omega
    · rename_i hf
      cases j with
      | zero => simpa using hf
      | succ j => simpa using ih (by omega)

theorem evictCount_le_of_fits {cap maxm : Nat} {new l : List Msg} {j : Nat}
    (h : Fits cap maxm (l.drop j) new) : evictCount cap maxm new l ≤ j := by
  apply Nat.le_of_not_lt
  intro h'
  exact evictCount_min h' h

/-- `evictCount` is the least number of messages to discard. -/
theorem evictCount_spec {cap maxm : Nat} {new : List Msg} (hb : bytesOf new ≤ cap)
    (hm : new.length ≤ maxm) (l : List Msg) (k : Nat) :
    evictCount cap maxm new l = k ↔
      Fits cap maxm (l.drop k) new ∧ ∀ j, j < k → ¬ Fits cap maxm (l.drop j) new := by
  constructor
  · rintro rfl
    exact ⟨evictCount_fits hb hm l, fun j hj => evictCount_min hj⟩
  · rintro ⟨h1, h2⟩
    have := evictCount_le_of_fits h1
    rcases Nat.lt_or_ge (evictCount cap maxm new l) k with h | h
    · exact absurd (evictCount_fits hb hm l) (h2 _ h)
    · omega

theorem takeCount_le_length (l : List Msg) (len niov : Nat) : takeCount l len niov ≤ l.length := by
  induction l generalizing len niov with
  | nil => simp [takeCount]
  | cons m ms ih =>
    cases niov with
    | zero => simp [takeCount]
    | succ k =>
      unfold takeCount; split
      · have := ih (len - m.length) k; simp; omega
      · simp

theorem takeCount_le_niov (l : List Msg) (len niov : Nat) : takeCount l len niov ≤ niov := by
  induction l generalizing len niov with
  | nil => simp [takeCount]
  | cons m ms ih =>
    cases niov with
    | zero => simp [takeCount]
    | succ k =>
      unfold takeCount; split
      · have := ih (len - m.length) k; omega
      · simp

theorem takeCount_bytes (l : List Msg) (len niov : Nat) :
    bytesOf (l.take (takeCount l len niov)) ≤ len := by
  induction l generalizing len niov with
  | nil => simp [takeCount]
  | cons m ms ih =>
    cases niov with
    | zero => simp [takeCount]
    | succ k =>
      unfold takeCount; split
      · have := ih (len - m.length) k; simp; omega
      · simp

theorem takeCount_max {l : List Msg} {len niov k : Nat} (h1 : k ≤ l.length) (h2 : k ≤ niov)
    (h3 : bytesOf (l.take k) ≤ len) : k ≤ takeCount l len niov := by
  induction l generalizing len niov k with
  | nil => simp at h1; omega
  | cons m ms ih =>
    cases k with
    | zero => omega
    | succ k =>
      cases niov with
      | zero => omega
      | succ c =>
        simp at h1 h3
        unfold takeCount
        rw [if_pos (by omega)]
        have := ih (len := len - m.length) (niov := c) (k := k) (by omega) (by omega) (by omega)
        omega

/-- `takeCount` is the greatest number of messages satisfying all three limits. -/
theorem takeCount_spec (l : List Msg) (len niov k : Nat) :
    takeCount l len niov = k ↔
      (k ≤ l.length ∧ k ≤ niov ∧ bytesOf (l.take k) ≤ len) ∧
      ∀ j, j ≤ l.length → j ≤ niov → bytesOf (l.take j) ≤ len → j ≤ k := by
  constructor
  · rintro rfl
    exact ⟨⟨takeCount_le_length _ _ _, takeCount_le_niov _ _ _, takeCount_bytes _ _ _⟩,
      fun j a b c => takeCount_max a b c⟩
  · rintro ⟨⟨a, b, c⟩, h⟩
    have := takeCount_max a b c
    have := h _ (takeCount_le_length l len niov) (takeCount_le_niov _ _ _) (takeCount_bytes _ _ _)
    omega

theorem layout_length (off : Nat) (l : List Msg) : (layout off l).length = l.length := by
  induction l generalizing off with
  | nil => rfl
  | cons m ms ih => simp [layout, ih]

theorem layout_append (off : Nat) (a b : List Msg) :
    layout off (a ++ b) = layout off a ++ layout (off + bytesOf a) b := by
  induction a generalizing off with
  | nil => simp [layout]
  | cons m ms ih => simp [layout, ih, Nat.add_assoc]

/-! ## `put` -/

theorem put_length {d : List Byte} {off : Nat} {src : List Byte} (h : off + src.length ≤ d.length) :
    (put d off src).length = d.length := by
  simp [put]; omega

theorem put_getElem?_in {d : List Byte} {off : Nat} {src : List Byte} {k : Nat}
    (h : off + src.length ≤ d.length) (hk : k < src.length) :
    (put d off src)[off + k]? = src[k]? := by
  unfold put
  rw [List.append_assoc, List.getElem?_append_right (by simp; omega)]
  rw [List.getElem?_append_left (by simp; omega)]
  congr 1
  simp; omega

theorem put_getElem?_out {d : List Byte} {off : Nat} {src : List Byte} {k : Nat}
    (h : off + src.length ≤ d.length) (hk : k < off ∨ off + src.length ≤ k) :
    (put d off src)[k]? = d[k]? := by
  unfold put
  rcases hk with hk | hk
  · rw [List.append_assoc, List.getElem?_append_left (by simp; omega)]
    simp [hk]
  · rw [List.getElem?_append_right (by simp; omega), List.getElem?_drop]
    congr 1
    simp; omega

theorem put_nil (d : List Byte) (off : Nat) : put d off [] = d := by simp [put]

end Shr
