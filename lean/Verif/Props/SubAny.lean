import Verif.Proof.Tool
import Verif.Props.Total
/-! # A subscriber on any stream of bytes (C80) -/
namespace Shr

/-- The bytes begin with the length `n` (four bytes, least significant first). -/
def Announces (t : List Byte) (n : Nat) : Prop := n < 2 ^ 32 ∧ ((List.range 4).map fun i => (n / 256 ^ i % 256).toUInt8) <+: t

/-- The bytes are the beginning of a frame of an admissible length (at most 1 MiB) and no more: the length is not there yet, or not all of the
message. -/
def Incomplete (t : List Byte) : Prop := t.length < 4 ∨ ∃ n, Announces t n ∧ n ≤ 1024 * 1024 ∧ t.length < 4 + n

theorem put32_eq (n : Nat) : put32 n = (List.range 4).map fun i => (n / 256 ^ i % 256).toUInt8 := by
  simp [put32, List.range_succ]

theorem put32_le32 (b0 b1 b2 b3 : Byte) (t : List Byte) : put32 (le32 (b0 :: b1 :: b2 :: b3 :: t)) = [b0, b1, b2, b3] := by
  have h0 := b0.toNat_lt; have h1 := b1.toNat_lt; have h2 := b2.toNat_lt; have h3 := b3.toNat_lt
  simp only [le32, put32]
  have e0 : (b0.toNat + 256 * b1.toNat + 65536 * b2.toNat + 16777216 * b3.toNat) % 256 = b0.toNat := by omega
  have e1 : (b0.toNat + 256 * b1.toNat + 65536 * b2.toNat + 16777216 * b3.toNat) / 256 % 256 = b1.toNat := by omega
  have e2 : (b0.toNat + 256 * b1.toNat + 65536 * b2.toNat + 16777216 * b3.toNat) / 65536 % 256 = b2.toNat := by omega
  have e3 : (b0.toNat + 256 * b1.toNat + 65536 * b2.toNat + 16777216 * b3.toNat) / 16777216 % 256 = b3.toNat := by omega
  rw [e0, e1, e2, e3]
  simp [Nat.toUInt8]

theorem four {t : List Byte} (h : ¬ t.length < 4) : ∃ b0 b1 b2 b3 u, t = b0 :: b1 :: b2 :: b3 :: u := by
  match t, h with
  | b0 :: b1 :: b2 :: b3 :: u, _ => exact ⟨b0, b1, b2, b3, u, rfl⟩
  | [], h => exact absurd (by simp) h
  | [_], h => exact absurd (by simp) h
  | [_, _], h => exact absurd (by simp) h
  | [_, _, _], h => exact absurd (by simp) h

theorem announces_le32 {t : List Byte} (h : ¬ t.length < 4) : Announces t (le32 t) := by
  obtain ⟨b0, b1, b2, b3, u, rfl⟩ := four h
  refine ⟨?_, ?_⟩
  · have h0 := b0.toNat_lt; have h1 := b1.toNat_lt; have h2 := b2.toNat_lt; have h3 := b3.toNat_lt
    simp only [le32]; omega
  · rw [← put32_eq, put32_le32]
    exact ⟨u, rfl⟩

/-- The loop finds all complete frames, or an announcement of more than 1 MiB. -/
theorem decodeLoop_any (used : Nat) (t : List Byte) (hu : used + t.length / 4 < NUMIOV) :
    (∃ fs rest, decodeLoop used t = some (fs, rest) ∧ t = framesOf fs ++ rest ∧ (∀ f ∈ fs, f.length ≤ 1024 * 1024) ∧ Incomplete rest) ∨
    (decodeLoop used t = none ∧ ∃ fs rest n, t = framesOf fs ++ rest ∧ (∀ f ∈ fs, f.length ≤ 1024 * 1024) ∧ Announces rest n ∧ 1024 * 1024 < n) := by
  rw [decodeLoop]
  by_cases h4 : t.length < 4
  · rw [dif_pos h4]
    exact .inl ⟨[], t, rfl, rfl, fun _ h => (by cases h), .inl h4⟩
  rw [dif_neg h4]
  dsimp only
  have ha := announces_le32 h4
  by_cases h1 : le32 t > MAX_FRAME
  · rw [if_pos h1]
    exact .inr ⟨rfl, [], t, le32 t, rfl, fun _ h => (by cases h), ha, h1⟩
  rw [if_neg h1]
  by_cases h2 : 4 + le32 t > t.length
  · rw [if_pos h2]
    exact .inl ⟨[], t, rfl, rfl, fun _ h => (by cases h), .inr ⟨le32 t, ha, by unfold MAX_FRAME at h1; omega, h2⟩⟩
  rw [if_neg h2, if_neg (by omega)]
  have hl : ((t.drop 4).take (le32 t)).length = le32 t := by
    rw [List.length_take, List.length_drop]; omega
  have hf : t = frameOf ((t.drop 4).take (le32 t)) ++ t.drop (4 + le32 t) := by
    rw [frameOf_eq, hl]
    obtain ⟨b0, b1, b2, b3, u, rfl⟩ := four h4
    rw [put32_le32]
    generalize le32 (b0 :: b1 :: b2 :: b3 :: u) = n
    show _ = b0 :: b1 :: b2 :: b3 :: (u.take n ++ (b0 :: b1 :: b2 :: b3 :: u).drop (4 + n))
    rw [show (b0 :: b1 :: b2 :: b3 :: u).drop (4 + n) = u.drop n by rw [Nat.add_comm]; rfl, List.take_append_drop]
  have hlm : ((t.drop 4).take (le32 t)).length ≤ 1024 * 1024 := by rw [hl]; unfold MAX_FRAME at h1; omega
  rcases decodeLoop_any (used + 1) (t.drop (4 + le32 t)) (by rw [List.length_drop]; omega) with
    ⟨fs, rest, e1, e2, e3, e4⟩ | ⟨e1, fs, rest, n, e2, e3, e4⟩
  · refine .inl ⟨_ :: fs, rest, by rw [e1]; rfl, ?_, ?_, e4⟩
    · rw [framesOf_cons, List.append_assoc, ← e2]; exact hf
    · intro f hf'
      rcases List.mem_cons.mp hf' with rfl | hf'
      · exact hlm
      · exact e3 f hf'
  · refine .inr ⟨by rw [e1]; rfl, (t.drop 4).take (le32 t) :: fs, rest, n, ?_, ?_, e4⟩
    · rw [framesOf_cons, List.append_assoc, ← e2]; exact hf
    · intro f hf'
      rcases List.mem_cons.mp hf' with rfl | hf'
      · exact hlm
      · exact e3 f hf'
termination_by t.length
decreasing_by rw [List.length_drop]; omega

/-- How a subscriber that handed over `handed` stands, when `got` are the bytes received so far. -/
inductive SubState (writev : Nat → List Msg → Int) (got : List Byte) (handed : List (List Msg)) : SubRes → Prop where
  /-- It goes on: all complete frames among the bytes were handed over and accepted; it holds the rest. -/
  | run {buf} : got = framesOf handed.flatten ++ buf → Incomplete buf →
      (∀ i fs, handed[i]? = some fs → 0 ≤ writev i fs) → SubState writev got handed (.run buf [])
  /-- It exits because `shr_writev` refused the last batch. -/
  | refused {pre fs buf} : handed = pre ++ [fs] → got = framesOf handed.flatten ++ buf → writev pre.length fs < 0 →
      (∀ i fs, pre[i]? = some fs → 0 ≤ writev i fs) → Incomplete buf → SubState writev got handed (.exit fs)
  /-- It exits because a frame of more than 1 MiB is announced; frames received together with the announcement are lost. -/
  | overlong {lost buf n} : got = framesOf (handed.flatten ++ lost) ++ buf → Announces buf n → 1024 * 1024 < n →
      (∀ i fs, handed[i]? = some fs → 0 ≤ writev i fs) → SubState writev got handed (.exit [])
  /-- An assertion fails: the first 1000000 bytes of a frame that is longer than that were received. -/
  | full {buf n} : got = framesOf handed.flatten ++ buf → buf.length = 1000000 → Announces buf n → 1000000 < 4 + n → n ≤ 1024 * 1024 →
      (∀ i fs, handed[i]? = some fs → 0 ≤ writev i fs) → SubState writev got handed .abort

theorem getElem?_snoc {α : Type} {P : Nat → α → Prop} {l : List α} {x : α} (h : ∀ i y, l[i]? = some y → P i y) (hx : P l.length x) :
    ∀ i y, (l ++ [x])[i]? = some y → P i y := by
  intro i y hi
  rcases Nat.lt_trichotomy i l.length with hlt | rfl | hgt
  · rw [List.getElem?_append_left hlt] at hi; exact h i y hi
  · simp at hi; subst hi; exact hx
  · rw [List.getElem?_eq_none (by simp; omega)] at hi; cases hi

theorem subRun_any (writev : Nat → List Msg → Int) : ∀ (ks : List Nat) (stream buf : List Byte) (handed : List (List Msg)) (got : List Byte)
    (st : SubRes) (handed' : List (List Msg)) (unread : List Byte),
    subRun writev ks stream buf handed = (st, handed', unread) →
    got = framesOf handed.flatten ++ buf → Incomplete buf → buf.length ≤ BUFLEN →
    (∀ i fs, handed[i]? = some fs → 0 ≤ writev i fs) → (∀ fs ∈ handed, fs ≠ []) → (∀ f ∈ handed.flatten, f.length ≤ 1024 * 1024) →
    ∃ got', got ++ stream = got' ++ unread ∧ SubState writev got' handed' st ∧ (∀ fs ∈ handed', fs ≠ []) ∧
      ∀ f ∈ handed'.flatten, f.length ≤ 1024 * 1024 := by
  intro ks
  induction ks with
  | nil =>
    intro stream buf handed got st handed' unread h hg hi hb hw hne hf
    cases h
    exact ⟨got, rfl, .run hg hi hw, hne, hf⟩
  | cons k ks ih =>
    intro stream buf handed got st handed' unread h hg hi hb hw hne hf
    rw [subRun] at h
    by_cases hs : stream = []
    · rw [if_pos hs] at h
      cases h
      exact ⟨got, by rw [hs], .run hg hi hw, hne, hf⟩
    rw [if_neg hs] at h
    dsimp only at h
    unfold do_subscriber at h
    by_cases hfull : buf.length < BUFLEN
    swap
    · rw [if_pos hfull] at h
      cases h
      have hl : buf.length = 1000000 := by unfold BUFLEN at hb hfull; omega
      rcases hi with hi | ⟨n, h1, h2, h3⟩
      · omega
      · exact ⟨got, rfl, .full hg hl h1 (by omega) h2 hw, hne, hf⟩
    rw [if_neg (fun h => h hfull)] at h
    beta_reduce at h
    have hn : 0 < min (k + 1) (BUFLEN - buf.length) := by omega
    generalize hnn : min (k + 1) (BUFLEN - buf.length) = n at h hn
    cases hc : stream.take n with
    | nil =>
      have h1 := congrArg List.length hc
      rw [List.length_take, List.length_nil] at h1
      have h2 := List.length_pos_iff.mpr hs
      omega
    | cons c cs =>
      have hlen : (stream.take n).length ≤ BUFLEN - buf.length := by rw [List.length_take]; omega
      have hgot : got ++ stream.take n = framesOf handed.flatten ++ (buf ++ stream.take n) := by rw [hg, List.append_assoc]
      have hsplit : got ++ stream = (got ++ stream.take n) ++ stream.drop n := by rw [List.append_assoc, List.take_append_drop]
      rw [hc] at h
      dsimp only at h
      rw [← hc] at h
      unfold decode_frames at h
      have hB : (buf ++ stream.take n).length ≤ BUFLEN := by rw [List.length_append]; omega
      generalize buf ++ stream.take n = b at h hgot hB
      rcases decodeLoop_any 0 b (by unfold BUFLEN at hB; unfold NUMIOV; omega) with
        ⟨fs, rest, e1, e2, e3, e4⟩ | ⟨e1, fs, rest, m, e2, e3, e4, e5⟩
      · rw [e1] at h
        have hrest : rest.length ≤ BUFLEN := by rw [e2, List.length_append] at hB; omega
        cases fs with
        | nil =>
          dsimp only at h
          rw [if_pos rfl] at h
          obtain ⟨got', g1, g2⟩ := ih _ _ _ _ _ _ _ h hgot (by rw [e2]; exact e4) hB hw hne hf
          exact ⟨got', by rw [hsplit, g1], g2⟩
        | cons f fs =>
          dsimp only at h
          have hfl : ∀ x ∈ (handed ++ [f :: fs]).flatten, x.length ≤ 1024 * 1024 := by
            intro x hx
            rw [List.flatten_append, List.mem_append] at hx
            rcases hx with hx | hx
            · exact hf x hx
            · exact e3 x (by simpa using hx)
          have hnn' : ∀ x ∈ handed ++ [f :: fs], x ≠ [] := by
            intro x hx
            rcases List.mem_append.mp hx with hx | hx
            · exact hne x hx
            · simp at hx; rw [hx]; simp
          have hg2 : got ++ stream.take n = framesOf (handed ++ [f :: fs]).flatten ++ rest := by
            rw [hgot, e2, List.flatten_append, framesOf_append, List.append_assoc]
            simp
          by_cases hwv : writev handed.length (f :: fs) < 0
          · rw [if_pos hwv] at h
            dsimp only at h
            rw [if_neg (by simp)] at h
            cases h
            exact ⟨got ++ stream.take n, hsplit, .refused rfl hg2 hwv hw e4, hnn', hfl⟩
          · rw [if_neg hwv] at h
            dsimp only at h
            rw [if_neg (by simp)] at h
            obtain ⟨got', g1, g2⟩ := ih _ _ _ _ _ _ _ h hg2 e4 hrest
              (getElem?_snoc (P := fun i fs => 0 ≤ writev i fs) hw (by omega)) hnn' hfl
            exact ⟨got', by rw [hsplit, g1], g2⟩
      · rw [e1] at h
        dsimp only at h
        rw [if_pos rfl] at h
        cases h
        exact ⟨got ++ stream.take n, hsplit, .overlong (lost := fs) (by rw [hgot, e2, framesOf_append, List.append_assoc]) e4 e5 hw, hne, hf⟩

/-- **C80.** Whatever bytes a subscriber receives, from whomever, and however they arrive: what it has given to `shr_writev` is at any
time exactly the messages whose frames are among the bytes received, each of at most 1 MiB, in order, and it holds nothing but the beginning
of an incomplete frame; it ends only if `shr_writev` refuses a batch, if a frame of more than 1 MiB is announced (then the frames
received together with the announcement are not written), or in a failed assertion if the first 1000000 bytes of a longer frame have
arrived. -/
theorem C80_any_stream (writev : Nat → List Msg → Int) (ks : List Nat) (stream : List Byte) (st : SubRes) (handed : List (List Msg))
    (unread : List Byte) (h : subRun writev ks stream [] [] = (st, handed, unread)) :
    ∃ got, stream = got ++ unread ∧ SubState writev got handed st ∧ (∀ fs ∈ handed, fs ≠ []) ∧ ∀ m ∈ handed.flatten, m.length ≤ 1024 * 1024 :=
  subRun_any writev ks stream [] [] [] st handed unread h rfl (.inl (by decide)) (by decide) (fun i fs hi => by simp at hi)
    (fun _ h => (by cases h)) (fun _ h => (by cases h))

/-- The states are what they say: no stream has two different sequences of complete frames. -/
theorem C80_frames_unique {ms ms' : List Msg} {r r' : List Byte} (h1 : ∀ m ∈ ms, m.length ≤ 1024 * 1024) (h2 : ∀ m ∈ ms', m.length ≤ 1024 * 1024)
    (hr : Incomplete r) (hr' : Incomplete r') (h : framesOf ms ++ r = framesOf ms' ++ r') : ms = ms' ∧ r = r' := by
  have key : ∀ (m : Msg) (t r : List Byte), m.length ≤ 1024 * 1024 → Incomplete r → frameOf m ++ t ≠ r := by
    intro m t r hm hi e
    subst e
    rcases hi with hi | ⟨n, ⟨h1, h2⟩, h3, h4⟩
    · rw [List.length_append, frameOf_length] at hi; omega
    · rw [← put32_eq, frameOf_eq, List.append_assoc] at h2
      have : put32 n = put32 m.length := by
        obtain ⟨u, hu⟩ := h2
        exact (List.append_inj hu (by rfl)).1
      have hl : n = m.length := by
        have e1 := le32_put32 n h1 []
        have e2 := le32_put32 m.length (by omega) []
        rw [this] at e1; omega
      rw [List.length_append, frameOf_length] at h4
      omega
  induction ms generalizing ms' with
  | nil =>
    cases ms' with
    | nil => exact ⟨rfl, h⟩
    | cons m' ms' =>
      rw [framesOf_cons, List.append_assoc] at h
      exact absurd h.symm (key m' _ r (h2 m' (by simp)) hr)
  | cons m ms ih =>
    cases ms' with
    | nil =>
      rw [framesOf_cons, List.append_assoc] at h
      exact absurd h (key m _ r' (h1 m (by simp)) hr')
    | cons m' ms' =>
      rw [framesOf_cons, framesOf_cons, List.append_assoc, List.append_assoc, frameOf_eq, frameOf_eq, List.append_assoc, List.append_assoc] at h
      obtain ⟨h3, h4⟩ := List.append_inj h rfl
      have hl : m.length = m'.length := by
        have e1 := le32_put32 m.length (by have := h1 m (by simp); omega) []
        have e2 := le32_put32 m'.length (by have := h2 m' (by simp); omega) []
        rw [h3] at e1; omega
      obtain ⟨h5, h6⟩ := List.append_inj h4 hl
      obtain ⟨h7, h8⟩ := ih (fun x hx => h1 x (by simp [hx])) (fun x hx => h2 x (by simp [hx])) h6
      exact ⟨by rw [h5, h7], h8⟩

/-- C80: a message, then garbage that announces a frame of 2^32 - 1 bytes; they arrive separately, or together, and then the message is
lost. -/
example : subRun (fun _ _ => 1) [5, 9] (frameOf [7, 8] ++ [255, 255, 255, 255, 1]) [] [] = (.exit [], [[[7, 8]]], []) ∧
    subRun (fun _ _ => 1) [50] (frameOf [7, 8] ++ [255, 255, 255, 255, 1]) [] [] = (.exit [], [], []) := by decide +kernel

/-- C80: an empty frame is handed to `shr_writev` like any other. -/
example : subRun (fun _ _ => 1) [50] (frameOf [7] ++ frameOf []) [] [] = (.run [] [], [[[7], []]], []) := by decide +kernel

/-- **C80.** And that is fatal: whoever can send to a subscriber can make it abort inside its write, that is while it holds the lock of its ring,
by an empty frame behind a nonempty one, whatever the state of the ring is, as long as there is room for the first. -/
theorem C80_empty_frame_kills {a : InitArgs} {ops : List Op} {s : Sys} {outs : List Out} {k : Nat} {h : Handle} {env envF : Env}
    (v : Valid a ops) (hrun : (Sys.init a).run ops = .ok (s, outs)) (hk : s.hs k = .live h) (hw : h.flags.has SHR_WRONLY = true)
    (hub : h.flags.has SHR_BUFFERED = false) (hlk : env.lockOk = true) (m : Msg) (hm : m ≠ []) (hl : m.length ≤ 999992)
    (hc : m.length ≤ a.dataSz) (hmm : 2 ≤ a.max_msgs) (hroom : Room a s [m, []]) (writev : Nat → List Msg → Int) :
    (subRun writev [1000000] (frameOf m ++ frameOf []) [] []).2.1 = [[m, []]] ∧
    s.step (.writev k [m, []] envF env) = .error .abort := by
  refine ⟨?_, ?_⟩
  · have hf : frameOf m ++ frameOf [] = framesOf [m, []] := by simp [framesOf]
    have hlen : (framesOf [m, []]).length = m.length + 8 := by
      rw [← hf, List.length_append, frameOf_length, frameOf_length]; simp; omega
    have hd : decodeLoop 0 (framesOf [m, []]) = some ([m, []], []) := by
      obtain ⟨fs, ms', rest, h1, h2, h3, h4, h5⟩ := decodeLoop_prefix [m, []] 0 (framesOf [m, []])
        (by intro x hx; simp at hx; rcases hx with rfl | rfl <;> simp [MAX_FRAME]; omega) (List.prefix_refl _)
        (by rw [hlen]; unfold NUMIOV; omega)
      have : ms' = [] := by
        cases ms' with
        | nil => rfl
        | cons x xs =>
          have h6 := h5 x xs rfl
          rw [h1, framesOf_append, framesOf_cons] at h3
          have := List.append_cancel_left h3
          have := congrArg List.length this
          rw [List.length_append] at this
          omega
      subst this
      rw [h4 rfl] at h2
      rw [List.append_nil] at h1
      rw [h2, h1]
    rw [hf, subRun, if_neg (by intro e; rw [e] at hlen; simp at hlen)]
    unfold do_subscriber
    rw [if_neg (by decide)]
    have ht : (framesOf [m, []]).take (min (1000000 + 1) (BUFLEN - ([] : List Byte).length)) = framesOf [m, []] :=
      List.take_of_length_le (by rw [hlen]; unfold BUFLEN; simp; omega)
    beta_reduce
    rw [ht]
    cases hx : framesOf [m, []] with
    | nil => rw [hx] at hlen; simp at hlen
    | cons c cs =>
      dsimp only
      rw [← hx, List.nil_append]
      unfold decode_frames
      rw [hd]
      dsimp only
      by_cases hwv : writev 0 [m, []] < 0
      · rw [if_pos (by simpa using hwv)]
        simp
      · rw [if_neg (by simpa using hwv)]
        simp [subRun]
  · refine C69_abort v hrun hk hw hub ?_ ?_ hlk hroom (by simp)
    · intro b hb
      simp at hb
      rcases hb with rfl | rfl
      · have : (999992 : Nat) ≤ SSIZE_MAX := by decide
        omega
      · simp
    · exact ⟨by simp, by simpa using hm, by simpa [bytesOf] using hc, hmm⟩

example : (subRun (fun _ _ => 1) [1000000] (frameOf [7] ++ frameOf []) [] []).2.1 = [[[7], []]] ∧
    (final demoD demoOps).step (wr 0 [[7], []]) = .error .abort := by
  have v : Valid demoD demoOps := valid_of (by decide +kernel)
  exact C80_empty_frame_kills v v.runs (live_handle (by decide +kernel)) (by decide +kernel) (by decide +kernel) rfl [7] (by decide) (by decide)
    (by decide) (by decide) (by decide +kernel) _

end Shr
