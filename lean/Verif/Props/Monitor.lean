import Verif.Model.Api
/-!
# What counts as a fault (C18)

`C18_no_fault` says that no fault happens.  Here it is said what a fault is: the model stops with one if a byte, a message slot or an iov entry outside of its
array is touched, if something is divided by zero, and if an asserted condition is false.
-/
namespace Shr

/-- **C18.** Reading from memory, and writing to private and to shared memory, are undefined exactly if a byte outside of the region is touched; otherwise exactly
the bytes asked for are read, and exactly the bytes given are changed. -/
theorem C18_bytes_in_bounds (d : List Byte) (off len : Nat) (src : List Byte) :
    (memRead d off len = .error .ub ↔ d.length < off + len) ∧
    (∀ b, memRead d off len = .ok b → b.length = len ∧ ∀ k, k < len → b[k]? = d[off + k]?) ∧
    (memWrite d off src = .error .ub ↔ d.length < off + src.length) ∧
    (∀ b, memWrite d off src = .ok b → b.length = d.length ∧ (∀ k, k < src.length → b[off + k]? = src[k]?) ∧
      ∀ k, k < off ∨ off + src.length ≤ k → b[k]? = d[k]?) := by
  refine ⟨?_, ?_, ?_, ?_⟩
  · unfold memRead
    by_cases h : off + len ≤ d.length
    · rw [if_pos h]; simp; omega
    · rw [if_neg h]; simp; omega
  · intro b
    unfold memRead
    by_cases h : off + len ≤ d.length
    · rw [if_pos h]
      intro e
      cases e
      refine ⟨by simp; omega, fun k hk => ?_⟩
      rw [List.getElem?_take, if_pos hk, List.getElem?_drop]
    · rw [if_neg h]; intro e; cases e
  · unfold memWrite
    by_cases h : off + src.length ≤ d.length
    · rw [if_pos h]; simp; omega
    · rw [if_neg h]; simp; omega
  · intro b
    unfold memWrite put
    by_cases h : off + src.length ≤ d.length
    · rw [if_pos h]
      intro e
      cases e
      have h0 : (d.take off).length = off := by simp; omega
      refine ⟨by simp; omega, ?_, ?_⟩
      · intro k hk
        rw [List.append_assoc, List.getElem?_append_right (by omega), h0, Nat.add_sub_cancel_left, List.getElem?_append_left hk]
      · rintro k (hk | hk)
        · rw [List.append_assoc, List.getElem?_append_left (by omega), List.getElem?_take, if_pos hk]
        · rw [List.getElem?_append_right (by simp; omega), List.getElem?_drop]
          congr 1
          simp
          omega
    · rw [if_neg h]; intro e; cases e

/-- **C18.** The same for copying into the data area of the ring: nothing is stored then. -/
theorem C18_copy_in_bounds (r : Ring) (off : Nat) (src : List Byte) :
    let x := memcpyShared Ring.d (fun d r => { r with d := d }) off src r
    (r.d.length < off + src.length → x.res = .ub ∧ x.trace = []) ∧
    (off + src.length ≤ r.d.length → ∃ d, x.res = .ok () { r with d := d } ∧ memWrite r.d off src = .ok d ∧
      ∀ s ∈ x.trace, ∃ k d', k < src.length ∧ memWrite r.d off (src.take k) = .ok d' ∧ s = { r with d := d' }) := by
  intro x
  constructor
  · intro h
    have : x = ⟨[], .ub⟩ := by
      show memcpyShared _ _ _ _ _ = _
      unfold memcpyShared
      rw [if_neg (by omega)]
    rw [this]
    exact ⟨rfl, rfl⟩
  · intro h
    have hx : x = ⟨(List.range src.length).map (fun k => { r with d := put r.d off (src.take k) }), .ok () { r with d := put r.d off src }⟩ := by
      show memcpyShared _ _ _ _ _ = _
      unfold memcpyShared
      rw [if_pos h]
    rw [hx]
    refine ⟨put r.d off src, rfl, by unfold memWrite; rw [if_pos h], ?_⟩
    intro s hs
    obtain ⟨k, hk, rfl⟩ := List.mem_map.1 hs
    have hk := List.mem_range.1 hk
    refine ⟨k, put r.d off (src.take k), hk, ?_, rfl⟩
    unfold memWrite
    rw [if_pos (by simp; omega)]

/-- **C18.** Caching a message is undefined exactly if it does not fit into the buffer or there is no entry left for it. -/
theorem C18_cache_in_bounds (c : Cache) (b : Msg) :
    (cacheOne c b = .error .ub ↔ c.buf.length < c.n + b.length ∨ c.iov.length ≤ c.vm) ∧
    (∀ f, cacheOne c b = .error f → f = .ub) := by
  unfold cacheOne memWrite
  by_cases h : c.n + b.length ≤ c.buf.length
  · rw [if_pos h]
    by_cases g : c.vm < c.iov.length
    · simp only [bind, Except.bind, if_pos g]
      constructor
      · constructor
        · intro e; cases e
        · intro e; omega
      · intro f e; cases e
    · simp only [bind, Except.bind, if_neg g]
      constructor
      · constructor
        · intro _; omega
        · intro _; trivial
      · intro f e; cases e; rfl
  · rw [if_neg h]
    simp only [bind, Except.bind]
    constructor
    · constructor
      · intro _; omega
      · intro _; trivial
    · intro f e; cases e; rfl

/-- **C18.** The message vector: looking for the next message, and storing one, is undefined if the slot is outside of the vector (and if
the vector has no slots, when the position is reduced modulo their number). -/
theorem C18_slots_in_bounds (r : Ring) :
    (∀ c, msgReady r (farmCatchUp r c) = true → r.gflags.has SHR_FARM = true → r.mm = 0 → next_msg_info r c = .error .ub) ∧
    (∀ c, msgReady r (farmCatchUp r c) = true → r.gflags.has SHR_FARM = true → r.mv.length ≤ (farmCatchUp r c).q % r.mm → next_msg_info r c = .error .ub) ∧
    (∀ c, msgReady r (farmCatchUp r c) = true → r.gflags.has SHR_FARM = false → r.mv.length ≤ r.r → next_msg_info r c = .error .ub) ∧
    (∀ b p, b ≠ [] → r.mv.length ≤ p → (copyOne b p r).res = .ub) ∧
    (∀ p, (copyOne [] p r).res = .abort r) := by
  refine ⟨?_, ?_, ?_, ?_, ?_⟩
  · intro c h1 h2 h3
    unfold next_msg_info
    dsimp only
    rw [if_neg (by simp [h1]), if_pos ⟨h2, h3⟩]
  · intro c h1 h2 h3
    unfold next_msg_info
    dsimp only
    rw [if_neg (by simp [h1])]
    by_cases h0 : r.mm = 0
    · rw [if_pos ⟨h2, h0⟩]
    · rw [if_neg (by simp [h0]), if_pos h2, List.getElem?_eq_none h3]
  · intro c h1 h2 h3
    unfold next_msg_info
    dsimp only
    rw [if_neg (by simp [h1]), if_neg (by simp [h2]), if_neg (by simp [h2]), List.getElem?_eq_none h3]
  · intro b p hb hp
    unfold copyOne
    rw [M.assert_bind_of (by cases b <;> simp_all), M.get_bind]
    rw [if_neg (by omega)]
    rfl
  · intro p
    unfold copyOne
    rfl

/-- **C18.** A failed assertion ends the program at this point: nothing after it is done. -/
theorem C18_assert {α : Type} (b : Bool) (f : Unit → M Ring α) (r : Ring) :
    (b = false → (M.assert b >>= f) r = ⟨[], .abort r⟩) ∧ (b = true → (M.assert b >>= f) r = f () r) := by
  constructor
  · rintro rfl; rfl
  · rintro rfl; exact M.assert_true_bind f r

/-- A message of three bytes does not fit into two, and one of two does. -/
example : memWrite [0, 0, 0, 0] 2 [1, 2, 3] = .error .ub ∧ memWrite [0, 0, 0, 0] 2 [1, 2] = .ok [0, 0, 1, 2] ∧
    memRead [1, 2, 3, 4] 1 2 = .ok [2, 3] ∧ memRead [1, 2, 3, 4] 3 2 = .error .ub := ⟨rfl, rfl, rfl, rfl⟩

end Shr
