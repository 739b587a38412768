import Verif.Model.BwName
import Mathlib.Tactic.SplitIfs
/-!
# C59: names survive the trip through a slot
-/
namespace Shr

theorem sock2asc_abstract (n : List Byte) (hlen : n.length ≤ 6) :
    sock2asc (abstractAddr n) = some (64 :: n ++ List.replicate (7 - n.length) 0) := by
  have h1 : (abstractAddr n).len - 2 - 1 = n.length := by simp [abstractAddr]; omega
  have h2 : (((abstractAddr n).path.drop 1).take n.length) = n := by
    simp [abstractAddr]
  rw [sock2asc, h1]
  rw [if_pos (by simp only [BW_NAMELEN]; omega), h2]
  have : ([0] : List Byte) ++ List.replicate (BW_NAMELEN - (n.length + 2)) 0 = List.replicate (7 - n.length) 0 := by
    have h7 : 7 - n.length = (BW_NAMELEN - (n.length + 2)) + 1 := by simp only [BW_NAMELEN]; omega
    rw [h7, List.replicate_succ]; rfl
  rw [List.append_assoc, this]

/-- C59: a waker that reads the name out of the slot connects to exactly the address the waiter is bound to, for
every abstract name of at most 6 bytes without NUL (the kernel's automatic names have 5). -/
theorem C59_name_round_trip (n : List Byte) (hlen : n.length ≤ 6) (h0 : (0 : Byte) ∉ n) :
    ∃ f, sock2asc (abstractAddr n) = some f ∧ f.length = BW_NAMELEN ∧ asc2sock f = some (abstractAddr n) := by
  refine ⟨_, sock2asc_abstract n hlen, by simp [BW_NAMELEN]; omega, ?_⟩
  have hrest : ((64 :: n ++ List.replicate (7 - n.length) (0 : Byte)).drop 1).take (BW_NAMELEN - 1) =
      n ++ List.replicate (7 - n.length) 0 := by
    rw [List.cons_append, List.drop_one, List.tail_cons, List.take_of_length_le]
    simp [BW_NAMELEN]; omega
  rw [asc2sock, hrest]
  have hmem : (0 : Byte) ∈ n ++ List.replicate (7 - n.length) 0 := by
    rw [List.mem_append]; right; rw [List.mem_replicate]; exact ⟨by omega, rfl⟩
  rw [if_pos hmem]
  have htw : (n ++ List.replicate (7 - n.length) (0 : Byte)).takeWhile (· ≠ 0) = n := by
    rw [List.takeWhile_append_of_pos]
    · have : 7 - n.length = (6 - n.length) + 1 := by omega
      rw [this, List.replicate_succ]; simp
    · intro x hx
      have : x ≠ 0 := fun e => h0 (e ▸ hx)
      simpa using this
  rw [htw, abstractAddr]
  congr 2
  rw [List.length_append, List.length_replicate, List.cons_append, List.cons_append, List.append_assoc,
    List.replicate_append_replicate]
  congr 3
  omega

/-- C59: two slots hold the same 8 bytes iff the sockets have the same name, so that comparing the fields (`bw_sync`)
and comparing names are the same. -/
theorem C59_names_injective (n n' : List Byte) (hlen : n.length ≤ 6) (hlen' : n'.length ≤ 6)
    (h0 : (0 : Byte) ∉ n) (h0' : (0 : Byte) ∉ n') :
    sock2asc (abstractAddr n) = sock2asc (abstractAddr n') ↔ n = n' := by
  constructor
  · intro h
    obtain ⟨f, h1, _, h2⟩ := C59_name_round_trip n hlen h0
    obtain ⟨f', h1', _, h2'⟩ := C59_name_round_trip n' hlen' h0'
    rw [h1, h1'] at h
    cases h
    rw [h2] at h2'
    have e := Option.some.inj h2'
    have hl : n.length = n'.length := by
      have := congrArg SockAddr.len e
      simpa [abstractAddr] using this
    have hp := congrArg SockAddr.path e
    simp only [abstractAddr, List.cons_append, List.cons.injEq, true_and, hl] at hp
    exact List.append_cancel_right hp
  · rintro rfl; rfl

/-- C59: the field never lacks its terminator, so `strlen` stays inside it. -/
theorem C59_terminated (a : SockAddr) (f : List Byte) (h : sock2asc a = some f) : asc2sock f ≠ none := by
  unfold sock2asc at h
  dsimp only at h
  split_ifs at h with hl
  cases h
  unfold asc2sock
  dsimp only
  rw [if_pos]
  · simp
  · simp only [BW_NAMELEN] at hl ⊢
    rw [List.append_assoc, List.cons_append, List.drop_one, List.tail_cons]
    have : ((a.path.drop 1).take (a.len - 2 - 1)).length ≤ 6 := by rw [List.length_take]; omega
    rw [List.take_append, List.mem_append]
    right
    obtain ⟨m, hm⟩ : ∃ m, 7 - ((a.path.drop 1).take (a.len - 2 - 1)).length = m + 1 := ⟨6 - ((a.path.drop 1).take (a.len - 2 - 1)).length, by omega⟩
    show (0 : Byte) ∈ List.take (8 - 1 - _) _
    rw [show 8 - 1 - ((a.path.drop 1).take (a.len - 2 - 1)).length = m + 1 from hm]
    simp

/-- C59: a longer name is not stored: the assertion ends the process. -/
theorem C59_long_name_aborts (n : List Byte) (h : 6 < n.length) : sock2asc (abstractAddr n) = none := by
  rw [sock2asc]
  rw [if_neg]
  simp only [abstractAddr, BW_NAMELEN]; omega

/-- The kernel's automatic names. -/
example : sock2asc (abstractAddr (asc "0000a")) = some (asc "@0000a" ++ [0, 0]) ∧
    asc2sock (asc "@0000a" ++ [0, 0]) = some (abstractAddr (asc "0000a")) := by decide +kernel

/-- Why the hypothesis about NUL: a name with a NUL inside is cut off. -/
example : sock2asc (abstractAddr [48, 0, 49]) = some [64, 48, 0, 49, 0, 0, 0, 0] ∧
    asc2sock [64, 48, 0, 49, 0, 0, 0, 0] ≠ some (abstractAddr [48, 0, 49]) := by decide +kernel

end Shr
