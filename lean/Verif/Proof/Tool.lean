import Verif.Model.Tool
import Mathlib.Tactic.SplitIfs
import Mathlib.Tactic.Ring
/-! Lemmas about shr-tool. -/
namespace Shr

/-! ## Frames -/

theorem frameOf_eq (m : Msg) : frameOf m = put32 m.length ++ m := by
  simp [frameOf, put32, List.range_succ]

theorem put32_length (n : Nat) : (put32 n).length = 4 := rfl

theorem frameOf_length (m : Msg) : (frameOf m).length = 4 + m.length := by
  rw [frameOf_eq, List.length_append, put32_length]

theorem framesOf_cons (m : Msg) (ms : List Msg) : framesOf (m :: ms) = frameOf m ++ framesOf ms := rfl
theorem framesOf_nil : framesOf [] = [] := rfl
theorem framesOf_append (a b : List Msg) : framesOf (a ++ b) = framesOf a ++ framesOf b := by
  simp [framesOf]

theorem toUInt8_toNat (n : Nat) : (n % 256).toUInt8.toNat = n % 256 := by
  simp [Nat.toUInt8]

theorem le32_put32 (n : Nat) (h : n < 2 ^ 32) (t : List Byte) : le32 (put32 n ++ t) = n := by
  simp only [put32, List.cons_append, le32]
  rw [toUInt8_toNat, toUInt8_toNat, toUInt8_toNat, toUInt8_toNat]
  omega

/-- A buffer that is the beginning of a stream: all complete frames are found. -/
theorem decodeLoop_prefix : ∀ (ms : List Msg) (used : Nat) (b : List Byte),
    (∀ m ∈ ms, m.length ≤ MAX_FRAME) → b <+: framesOf ms → used + b.length / 4 + 1 < NUMIOV →
    ∃ fs ms' rest, ms = fs ++ ms' ∧ decodeLoop used b = some (fs, rest) ∧ b = framesOf fs ++ rest ∧
      (ms' = [] → rest = []) ∧ (∀ m ms'', ms' = m :: ms'' → rest.length < (frameOf m).length) := by
  intro ms
  induction ms with
  | nil =>
    intro used b _ hb _
    have : b = [] := List.prefix_nil.mp hb
    subst this
    refine ⟨[], [], [], rfl, ?_, rfl, fun _ => rfl, fun m ms'' h => by cases h⟩
    rw [decodeLoop, dif_pos (by decide)]
  | cons m ms ih =>
    intro used b hms hb hn
    have hm := hms m (by simp)
    have h32 : m.length < 2 ^ 32 := by simp only [MAX_FRAME] at hm; omega
    by_cases hs : b.length < (frameOf m).length
    · refine ⟨[], m :: ms, b, rfl, ?_, rfl, (fun h => by cases h), fun m' ms'' h => by cases h; exact hs⟩
      rw [decodeLoop]
      by_cases h4 : b.length < 4
      · rw [dif_pos h4]
      rw [dif_neg h4]
      have hb' : b <+: frameOf m :=
        List.prefix_of_prefix_length_le hb ⟨framesOf ms, rfl⟩ (by omega)
      obtain ⟨t, ht⟩ : ∃ t, b = put32 m.length ++ t := by
        obtain ⟨u, hu⟩ := hb'
        have : put32 m.length <+: b := List.prefix_of_prefix_length_le
          ⟨m, by rw [← frameOf_eq]⟩ ⟨u, hu⟩ (by rw [put32_length]; omega)
        obtain ⟨t, ht⟩ := this
        exact ⟨t, ht.symm⟩
      have hle : le32 b = m.length := by rw [ht, le32_put32 _ h32]
      rw [frameOf_length] at hs
      simp only [hle]
      rw [if_neg (by omega), if_pos (by omega)]
    · have hpre : frameOf m <+: b := List.prefix_of_prefix_length_le ⟨framesOf ms, rfl⟩ hb (by omega)
      obtain ⟨b', rfl⟩ := hpre
      rw [framesOf_cons] at hb
      have hb' : b' <+: framesOf ms := (List.prefix_append_right_inj _).mp hb
      rw [List.length_append, frameOf_length] at hn
      obtain ⟨fs, ms', rest, h1, h2, h3, h4, h5⟩ := ih (used + 1) b' (fun x hx => hms x (by simp [hx])) hb' (by omega)
      refine ⟨m :: fs, ms', rest, by rw [h1]; rfl, ?_, by rw [h3, framesOf_cons, List.append_assoc], h4, h5⟩
      rw [decodeLoop, dif_neg (by rw [List.length_append, frameOf_length]; omega)]
      have hle : le32 (frameOf m ++ b') = m.length := by
        rw [frameOf_eq, List.append_assoc, le32_put32 _ h32]
      simp only [hle]
      rw [if_neg (by omega), if_neg (by rw [List.length_append, frameOf_length]; omega), if_neg (by omega)]
      have hd : (frameOf m ++ b').drop (4 + m.length) = b' := by
        rw [← frameOf_length]; simp
      have hbody : ((frameOf m ++ b').drop 4).take m.length = m := by
        rw [frameOf_eq, List.append_assoc]
        have : 4 = (put32 m.length).length := rfl
        rw [this, List.drop_left]
        simp
      rw [hd, h2, hbody]
      rfl

/-- The state of a subscriber between two steps: what it handed over, what it holds, what is still to come. -/
structure SubInv (ms : List Msg) (handed : List (List Msg)) (buf stream : List Byte) : Prop where
  split : ∃ ms', ms = handed.flatten ++ ms' ∧ buf ++ stream = framesOf ms' ∧
    (ms' = [] → buf = []) ∧ (∀ m ms'', ms' = m :: ms'' → buf.length < (frameOf m).length)
  ne : ∀ fs ∈ handed, fs ≠ []

theorem SubInv.space {ms : List Msg} {handed buf stream} (h : SubInv ms handed buf stream)
    (hms : ∀ m ∈ ms, m.length ≤ 999996) : buf.length < BUFLEN := by
  obtain ⟨ms', h1, _, h3, h4⟩ := h.split
  cases ms' with
  | nil => rw [h3 rfl]; decide
  | cons m ms'' =>
    have := h4 m ms'' rfl
    have hm := hms m (by rw [h1]; simp)
    rw [frameOf_length] at this
    simp only [BUFLEN]; omega

/-- One step. -/
theorem sub_step {ms : List Msg} {handed : List (List Msg)} {buf stream : List Byte}
    (inv : SubInv ms handed buf stream) (hms : ∀ m ∈ ms, m.length ≤ 999996) (writev : List Msg → Int) (k : Nat)
    (hs : stream ≠ []) :
    let n := min (k + 1) (BUFLEN - buf.length)
    (∃ buf' fs, do_subscriber writev (fun avail => some (stream.take (min (k + 1) avail))) buf = .run buf' fs ∧
      SubInv ms (if fs = [] then handed else handed ++ [fs]) buf' (stream.drop n)) ∨
    (∃ fs, do_subscriber writev (fun avail => some (stream.take (min (k + 1) avail))) buf = .exit fs ∧
      fs ≠ [] ∧ writev fs < 0 ∧ (handed ++ [fs]).flatten <+: ms) := by
  intro n
  have hsp := inv.space hms
  obtain ⟨ms', h1, h2, h3, h4⟩ := inv.split
  have hn : 0 < n := by show 0 < min (k + 1) (BUFLEN - buf.length); omega
  have hne : stream.take n ≠ [] := by
    intro h
    have := congrArg List.length h
    rw [List.length_take, List.length_nil] at this
    have : 0 < stream.length := List.length_pos_iff.mpr hs
    omega
  have hrun : do_subscriber writev (fun avail => some (stream.take (min (k + 1) avail))) buf =
      decode_frames writev (buf ++ stream.take n) := by
    rw [do_subscriber, if_neg (by omega)]
    show (match some (stream.take n) with | none => _ | some [] => _ | some chunk => _) = _
    rcases hq : stream.take n with _ | ⟨c, q⟩
    · exact absurd hq hne
    · rfl
  rw [hrun]
  have hcat : buf ++ stream.take n ++ stream.drop n = framesOf ms' := by
    rw [List.append_assoc, List.take_append_drop, h2]
  have hlen : (buf ++ stream.take n).length ≤ BUFLEN := by
    rw [List.length_append, List.length_take]
    have : n ≤ BUFLEN - buf.length := Nat.min_le_right _ _
    omega
  obtain ⟨fs, ms2, rest, e1, e2, e3, e4, e5⟩ := decodeLoop_prefix ms' 0 (buf ++ stream.take n)
    (fun m hm => by
      have := hms m (by rw [h1]; simp [hm])
      simp only [MAX_FRAME]; omega) ⟨_, hcat⟩ (by
      simp only [BUFLEN] at hlen
      simp only [NUMIOV]; omega)
  have hrest : rest ++ stream.drop n = framesOf ms2 := by
    rw [e3, e1, framesOf_append, List.append_assoc] at hcat
    exact List.append_cancel_left hcat
  rw [decode_frames, e2]
  cases fs with
  | nil =>
    left
    refine ⟨_, [], rfl, ?_⟩
    simp only [framesOf_nil, List.nil_append] at e1 e3
    rw [if_pos rfl]
    refine ⟨⟨ms', h1, hcat, ?_, ?_⟩, inv.ne⟩
    · intro h; rw [e3]; exact e4 (by rw [← e1]; exact h)
    · intro m ms'' h; rw [e3]; exact e5 m ms'' (by rw [← e1]; exact h)
  | cons f fs =>
    by_cases hw : writev (f :: fs) < 0
    · right
      refine ⟨f :: fs, by simp only [if_pos hw], by simp, hw, ms2, ?_⟩
      rw [h1, e1]; simp
    · left
      refine ⟨rest, f :: fs, by simp only [if_neg hw], ?_⟩
      rw [if_neg (by simp)]
      refine ⟨⟨ms2, by rw [h1, e1]; simp, hrest, e4, e5⟩, ?_⟩
      intro x hx
      rcases List.mem_append.mp hx with hx | hx
      · exact inv.ne x hx
      · simp only [List.mem_singleton] at hx; rw [hx]; simp

theorem subRun_spec (writev : Nat → List Msg → Int) : ∀ (ks : List Nat) (ms : List Msg) (handed : List (List Msg))
    (buf stream : List Byte), SubInv ms handed buf stream → (∀ m ∈ ms, m.length ≤ 999996) →
    ∀ st out rest, subRun writev ks stream buf handed = (st, out, rest) →
    (∃ buf', st = .run buf' [] ∧ SubInv ms out buf' rest ∧ rest.length ≤ stream.length - ks.length) ∨
    (∃ fs pre, st = .exit fs ∧ out = pre ++ [fs] ∧ fs ≠ [] ∧ writev pre.length fs < 0 ∧ out.flatten <+: ms) := by
  intro ks
  induction ks with
  | nil =>
    intro ms handed buf stream inv hms st out rest h
    simp only [subRun, Prod.mk.injEq] at h
    obtain ⟨rfl, rfl, rfl⟩ := h
    left; exact ⟨buf, rfl, inv, by simp⟩
  | cons k ks ih =>
    intro ms handed buf stream inv hms st out rest h
    rw [subRun] at h
    by_cases hs : stream = []
    · rw [if_pos hs] at h
      simp only [Prod.mk.injEq] at h
      obtain ⟨rfl, rfl, rfl⟩ := h
      left; exact ⟨buf, rfl, inv, by rw [hs]; simp⟩
    rw [if_neg hs] at h
    dsimp only at h
    rcases sub_step inv hms (writev handed.length) k hs with ⟨buf', fs, e, inv'⟩ | ⟨fs, e, hf, hw, hp⟩
    · rw [e] at h
      dsimp only at h
      rcases ih ms _ buf' _ inv' hms st out rest h with ⟨b, h1, h2, h3⟩ | h1
      · left
        refine ⟨b, h1, h2, ?_⟩
        have hsp := inv.space hms
        have : 0 < stream.length := List.length_pos_iff.mpr hs
        rw [List.length_drop] at h3
        simp only [List.length_cons]
        have : 0 < min (k + 1) (BUFLEN - buf.length) := by omega
        omega
      · right; exact h1
    · rw [e] at h
      dsimp only at h
      rw [if_neg hf] at h
      simp only [Prod.mk.injEq] at h
      obtain ⟨rfl, rfl, rfl⟩ := h
      right; exact ⟨fs, handed, rfl, rfl, hf, hw, hp⟩

theorem subInv_init (ms : List Msg) : SubInv ms [] [] (framesOf ms) := by
  refine ⟨⟨ms, rfl, rfl, fun _ => rfl, fun m ms'' _ => ?_⟩, by simp⟩
  rw [frameOf_length]; simp

end Shr
