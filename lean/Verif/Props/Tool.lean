import Verif.Proof.Tool
/-!
# C45, C46, C49, C50: shr-tool pub, sub, read, tee

`frameOf`, `framesOf`: `Spec/Text.lean`.
-/
namespace Shr

/-! ## C45 -/

/-- C45, subscriber: for every sequence of messages of at most 999996 bytes and every way the stream is cut into pieces, the
subscriber is never killed by an assertion; what it has handed to its ring at any time is exactly the messages whose frames
have arrived completely, in order; and it exits only because the ring refused a batch. -/
theorem C45_subscriber (writev : Nat → List Msg → Int) (ms : List Msg) (hms : ∀ m ∈ ms, m.length ≤ 999996)
    (ks : List Nat) (st : SubRes) (handed : List (List Msg)) (rest : List Byte)
    (h : subRun writev ks (framesOf ms) [] [] = (st, handed, rest)) :
    (∃ buf ms', st = .run buf [] ∧ ms = handed.flatten ++ ms' ∧
        framesOf ms = framesOf handed.flatten ++ buf ++ rest ∧
        (∀ m ms'', ms' = m :: ms'' → buf.length < (frameOf m).length) ∧
        (rest = [] → handed.flatten = ms ∧ buf = [])) ∨
    (∃ fs pre, st = .exit fs ∧ handed = pre ++ [fs] ∧ writev pre.length fs < 0 ∧ handed.flatten <+: ms) := by
  rcases subRun_spec writev ks ms [] [] (framesOf ms) (subInv_init ms) hms st handed rest h with
    ⟨buf, h1, inv, _⟩ | ⟨fs, pre, h1, h2, _, h3, h4⟩
  · left
    obtain ⟨ms', e1, e2, e3, e4⟩ := inv.split
    refine ⟨buf, ms', h1, e1, ?_, e4, ?_⟩
    · conv_lhs => rw [e1, framesOf_append, ← e2]
      rw [List.append_assoc]
    · rintro rfl
      rw [List.append_nil] at e2
      cases ms' with
      | nil => exact ⟨by rw [e1]; simp, e3 rfl⟩
      | cons m ms'' =>
        have := e4 m ms'' rfl
        rw [e2, framesOf_cons, List.length_append] at this
        omega
  · right; exact ⟨fs, pre, h1, h2, h3, h4⟩

/-- C45: if the ring accepts every batch and the stream is read to its end, the subscriber has handed over every message
that was published, in order, in batches that are not empty. -/
theorem C45_all_received (writev : Nat → List Msg → Int) (hw : ∀ i fs, 0 ≤ writev i fs) (ms : List Msg)
    (hms : ∀ m ∈ ms, m.length ≤ 999996) (ks : List Nat) (hks : (framesOf ms).length ≤ ks.length) :
    ∃ handed, subRun writev ks (framesOf ms) [] [] = (.run [] [], handed, []) ∧ handed.flatten = ms ∧
      ∀ fs ∈ handed, fs ≠ [] := by
  rcases hr : subRun writev ks (framesOf ms) [] [] with ⟨st, handed, rest⟩
  rcases subRun_spec writev ks ms [] [] (framesOf ms) (subInv_init ms) hms st handed rest hr with
    ⟨buf, h1, inv, hlen⟩ | ⟨fs, pre, h1, h2, _, h3, h4⟩
  · have hrest : rest = [] := List.eq_nil_of_length_eq_zero (by omega)
    rcases C45_subscriber writev ms hms ks st handed rest hr with ⟨b, ms', g1, _, _, _, g2⟩ | ⟨fs, pre, g1, _⟩
    · obtain ⟨e1, e2⟩ := g2 hrest
      refine ⟨handed, ?_, e1, inv.ne⟩
      rw [g1, e2, hrest]
    · rw [g1] at h1; cases h1
  · exact absurd h3 (not_lt.mpr (hw _ _))

/-- Two messages, cut in the middle of a length prefix and in the middle of a body. -/
example : subRun (fun _ _ => 1) [5, 0, 3, 0, 2, 1, 1] (framesOf [[7, 8], [9]]) [] [] =
    (.run [] [], [[[7, 8]], [[9]]], []) := by decide +kernel

theorem pubBody_spec : ∀ (ws : List (Option Nat)) (out acc : List Byte), out ≠ [] →
    (∀ bs, pubBody ws out acc = .sent bs → bs = acc ++ out) ∧
    (∀ bs, pubBody ws out acc = .dropped bs ∨ pubBody ws out acc = .more bs →
      ∃ k, k < out.length ∧ bs = acc ++ out.take k) ∧
    (∀ bs, pubBody ws out acc ≠ .abort bs) := by
  intro ws
  induction ws with
  | nil =>
    intro out acc h0
    have : 0 < out.length := List.length_pos_iff.mpr h0
    refine ⟨fun bs h => by simp [pubBody] at h, fun bs h => ⟨0, this, ?_⟩, fun bs h => by simp [pubBody] at h⟩
    simp [pubBody] at h; simp [h]
  | cons w ws ih =>
    intro out acc h0
    have hpos : 0 < out.length := List.length_pos_iff.mpr h0
    cases w with
    | none =>
      refine ⟨fun bs h => by simp [pubBody] at h, fun bs h => ⟨0, hpos, ?_⟩, fun bs h => by simp [pubBody] at h⟩
      simp [pubBody] at h; simp [h]
    | some k =>
      rw [pubBody]
      by_cases hc : out.length - min k out.length > 0
      · simp only [if_pos hc]
        have hne : out.drop (min k out.length) ≠ [] := by
          intro h
          have := congrArg List.length h
          rw [List.length_drop, List.length_nil] at this; omega
        obtain ⟨i1, i2, i3⟩ := ih (out.drop (min k out.length)) (acc ++ out.take (min k out.length)) hne
        refine ⟨fun bs h => ?_, fun bs h => ?_, i3⟩
        · rw [i1 bs h, List.append_assoc, List.take_append_drop]
        · obtain ⟨j, hj, e⟩ := i2 bs h
          rw [List.length_drop] at hj
          refine ⟨min k out.length + j, by omega, ?_⟩
          rw [e, List.append_assoc, List.take_add]
      · simp only [if_neg hc]
        refine ⟨fun bs h => ?_, fun bs h => ?_, fun bs h => by cases h⟩
        · cases h
          rw [List.take_of_length_le (by omega)]
        · rcases h with h | h <;> cases h

/-- C45, publisher: whatever short counts `write` returns for the body, when the publisher is done with a message it has sent
exactly its frame; if the client is dropped on the way it has sent a beginning of the frame. -/
theorem C45_publisher (pre : Option Nat) (ws : List (Option Nat)) (m : Msg) (hm : m ≠ []) :
    (∀ bs, pubFrame pre ws m = .sent bs → bs = frameOf m) ∧
    (∀ bs, pubFrame pre ws m = .dropped bs ∨ pubFrame pre ws m = .more bs ∨ pubFrame pre ws m = .abort bs →
      bs <+: frameOf m ∧ bs ≠ frameOf m) := by
  have hpos : 0 < m.length := List.length_pos_iff.mpr hm
  have short : ∀ bs : List Byte, bs <+: frameOf m → bs.length < (frameOf m).length → bs <+: frameOf m ∧ bs ≠ frameOf m :=
    fun bs h1 h2 => ⟨h1, fun e => by rw [e] at h2; omega⟩
  cases pre with
  | none =>
    refine ⟨fun bs h => by simp [pubFrame] at h, fun bs h => ?_⟩
    simp [pubFrame] at h
    subst h
    exact short _ (List.nil_prefix) (by rw [frameOf_length]; simp)
  | some k =>
    rw [pubFrame]
    by_cases hk : min k 4 ≠ 4
    · simp only [if_pos hk]
      refine ⟨(fun bs h => by cases h), fun bs h => ?_⟩
      rcases h with h | h | h <;> cases h
      refine short _ ?_ ?_
      · rw [frameOf_eq]; exact (List.take_prefix _ _).trans (List.prefix_append _ _)
      · rw [List.length_take, frameOf_length]; omega
    · simp only [if_neg hk]
      obtain ⟨h1, h2, h3⟩ := pubBody_spec ws m (put32 m.length) hm
      refine ⟨fun bs h => by rw [h1 bs h, frameOf_eq], fun bs h => ?_⟩
      have h' : pubBody ws m (put32 m.length) = .dropped bs ∨ pubBody ws m (put32 m.length) = .more bs := by
        rcases h with h | h | h
        · exact Or.inl h
        · exact Or.inr h
        · exact absurd h (h3 bs)
      obtain ⟨j, hj, rfl⟩ := h2 bs h'
      refine short _ ?_ ?_
      · rw [frameOf_eq]; exact List.prefix_append_right_inj _ |>.mpr (List.take_prefix _ _)
      · rw [List.length_append, List.length_take, put32_length, frameOf_length]; omega

/-- C45, end to end: messages published to one client without its being dropped arrive, whatever the short writes and the
segmentation. -/
theorem C45_end_to_end (ms : List Msg) (hms : ∀ m ∈ ms, m ≠ [] ∧ m.length ≤ 999996)
    (pre : Nat → Option Nat) (ws : Nat → List (Option Nat)) (sent : Nat → List Byte)
    (hsent : ∀ i (h : i < ms.length), pubFrame (pre i) (ws i) ms[i] = .sent (sent i))
    (writev : Nat → List Msg → Int) (hw : ∀ i fs, 0 ≤ writev i fs)
    (ks : List Nat) (hks : (((List.range ms.length).flatMap sent)).length ≤ ks.length) :
    ∃ handed, subRun writev ks ((List.range ms.length).flatMap sent) [] [] = (.run [] [], handed, []) ∧
      handed.flatten = ms := by
  have hstream : (List.range ms.length).flatMap sent = framesOf ms := by
    have e : ms = (List.range ms.length).map fun i => ms[i]?.getD [] := by
      apply List.ext_getElem?
      intro i
      by_cases hi : i < ms.length
      · rw [List.getElem?_map, List.getElem?_range hi]; simp [hi]
      · rw [List.getElem?_eq_none (by omega), List.getElem?_eq_none (by simp; omega)]
    rw [framesOf]
    conv_rhs => rw [e]
    rw [List.flatMap_map]
    rw [List.flatMap_def, List.flatMap_def]
    congr 1
    apply List.map_congr_left
    intro i hi
    rw [List.mem_range] at hi
    have hm := hms ms[i] (List.getElem_mem hi)
    rw [(C45_publisher (pre i) (ws i) ms[i] hm.1).1 _ (hsent i hi)]
    simp [hi]
  rw [hstream] at hks ⊢
  obtain ⟨handed, h1, h2, _⟩ := C45_all_received writev hw ms (fun m hm => (hms m hm).2) ks hks
  exact ⟨handed, h1, h2⟩

/-- A short write of the length prefix kills the publisher: it is not retried but asserted (util/shr-tool.c:724). -/
theorem C45_counterexample_short_prefix : pubFrame (some 3) [] [7] = .abort [1, 0, 0] := by decide +kernel

example : pubFrame (some 4) [some 1, some 0, some 5] [7, 8, 9] = .sent (frameOf [7, 8, 9]) := by decide +kernel

/-! ## C46 -/

/-- C46, what holds: a message of up to 999996 bytes is received (an instance of C45). -/
theorem C46_received_partial (writev : Nat → List Msg → Int) (hw : ∀ i fs, 0 ≤ writev i fs) (m : Msg)
    (hm : m.length ≤ 999996) (ks : List Nat) (hks : 4 + m.length ≤ ks.length) :
    ∃ handed, subRun writev ks (frameOf m) [] [] = (.run [] [], handed, []) ∧ handed.flatten = [m] := by
  have hl : (framesOf [m]).length = 4 + m.length := by
    rw [framesOf_cons, framesOf_nil, List.append_nil, frameOf_length]
  obtain ⟨handed, h1, h2, _⟩ := C45_all_received writev hw [m] (by simpa using hm) ks (by omega)
  rw [framesOf_cons, framesOf_nil, List.append_nil] at h1
  exact ⟨handed, h1, h2⟩

/-- C46 is false: a message of 999997 to 1000000 bytes, which a publisher can read from its ring and send, kills every
subscriber with a failed assertion (util/shr-tool.c:514), however the stream is cut. -/
theorem C46_counterexample_large (writev : Nat → List Msg → Int) (m : Msg) (h1 : 999996 < m.length)
    (h2 : m.length ≤ 1000000) (ks : List Nat) (hks : 1000000 < ks.length) :
    ∃ rest, subRun writev ks (frameOf m) [] [] = (.abort, [], rest) := by
  have hfl := frameOf_length m
  have key : ∀ (ks : List Nat) (buf stream : List Byte), buf ++ stream = frameOf m → buf.length ≤ BUFLEN →
      BUFLEN - buf.length < ks.length → ∃ rest, subRun writev ks stream buf [] = (.abort, [], rest) := by
    intro ks
    induction ks with
    | nil => intro buf stream _ _ h; simp at h
    | cons k ks ih =>
      intro buf stream hcat hle hlen
      have hs : stream ≠ [] := by
        rintro rfl
        rw [List.append_nil] at hcat
        rw [hcat, hfl] at hle
        simp only [BUFLEN] at hle; omega
      rw [subRun, if_neg hs]
      dsimp only
      by_cases hsp : buf.length < BUFLEN
      · -- a partial frame: nothing is found
        obtain ⟨n, hn⟩ : ∃ n, n = min (k + 1) (BUFLEN - buf.length) := ⟨_, rfl⟩
        have hne : stream.take n ≠ [] := by
          intro h
          have := congrArg List.length h
          rw [List.length_take, List.length_nil] at this
          have : 0 < stream.length := List.length_pos_iff.mpr hs
          omega
        have hb : buf ++ stream.take n <+: framesOf [m] := by
          rw [framesOf_cons, framesOf_nil, List.append_nil, ← hcat]
          exact List.prefix_append_right_inj _ |>.mpr (List.take_prefix _ _)
        have hbl : (buf ++ stream.take n).length ≤ BUFLEN := by
          rw [List.length_append, List.length_take]; omega
        have hdec : decodeLoop 0 (buf ++ stream.take n) = some ([], buf ++ stream.take n) := by
          obtain ⟨fs, ms', rest, e1, e2, e3, e4, e5⟩ := decodeLoop_prefix [m] 0 (buf ++ stream.take n)
            (by simp only [List.mem_singleton, forall_eq, MAX_FRAME]; omega) hb (by
              simp only [BUFLEN] at hbl; simp only [NUMIOV]; omega)
          cases fs with
          | nil => rw [e2, e3]; rfl
          | cons f fs =>
            exfalso
            simp only [List.cons_append, List.cons.injEq] at e1
            rw [e3, framesOf_cons, ← e1.1] at hbl
            simp only [List.length_append, frameOf_length, BUFLEN] at hbl
            omega
        have hdo : do_subscriber (writev ([] : List (List Msg)).length) (fun avail => some (stream.take (min (k + 1) avail))) buf =
            .run (buf ++ stream.take n) [] := by
          rw [do_subscriber, if_neg (by omega)]
          rw [← hn]
          rcases hq : stream.take n with _ | ⟨c, q⟩
          · exact absurd hq hne
          · show decode_frames _ (buf ++ c :: q) = _
            rw [← hq, decode_frames, hdec]
        rw [hdo]
        dsimp only
        rw [if_pos rfl, ← hn]
        apply ih
        · rw [List.append_assoc, List.take_append_drop, hcat]
        · exact hbl
        · have hst : (buf ++ stream).length = 4 + m.length := by rw [hcat, hfl]
          rw [List.length_append] at hst
          rw [List.length_append, List.length_take]
          simp only [List.length_cons, BUFLEN] at *
          omega
      · have hdo : do_subscriber (writev ([] : List (List Msg)).length) (fun avail => some (stream.take (min (k + 1) avail))) buf =
            .abort := by
          rw [do_subscriber, if_pos hsp]
        rw [hdo]
        exact ⟨_, rfl⟩
  refine key ks [] (frameOf m) rfl (by decide) ?_
  simp only [List.length_nil, BUFLEN]; omega

/-- C46 is also false for small messages: those that arrive together are written with one `shr_writev`, which fails if they do
not fit into the ring together (C43_oversize_rejected), although each of them would.  `n` is the size of the ring. -/
theorem C46_counterexample_batch (n : Nat) (writev : Nat → List Msg → Int)
    (hw : ∀ i fs, n < (fs.map List.length).sum → writev i fs < 0) (m1 m2 : Msg)
    (hn : n < m1.length + m2.length) (hlen : m1.length + m2.length + 8 ≤ 1000000)
    (k : Nat) (hk : m1.length + m2.length + 8 ≤ k + 1) (ks : List Nat) :
    ∃ rest, subRun writev (k :: ks) (framesOf [m1, m2]) [] [] = (.exit [m1, m2], [[m1, m2]], rest) := by
  have hfl : (framesOf [m1, m2]).length = m1.length + m2.length + 8 := by
    simp only [framesOf_cons, framesOf_nil, List.append_nil, List.length_append, frameOf_length]; omega
  have hne : framesOf [m1, m2] ≠ [] := by
    intro h; rw [h] at hfl; simp at hfl
  rw [subRun, if_neg hne]
  dsimp only
  have htake : (framesOf [m1, m2]).take (min (k + 1) (BUFLEN - ([] : List Byte).length)) = framesOf [m1, m2] := by
    apply List.take_of_length_le
    simp only [List.length_nil, BUFLEN]; omega
  have hdec : decodeLoop 0 (framesOf [m1, m2]) = some ([m1, m2], []) := by
    obtain ⟨fs, ms', rest, e1, e2, e3, e4, e5⟩ := decodeLoop_prefix [m1, m2] 0 (framesOf [m1, m2])
      (by simp only [List.mem_cons, List.not_mem_nil, or_false, MAX_FRAME]; rintro m (rfl | rfl) <;> omega)
      (List.prefix_refl _) (by rw [hfl]; simp only [NUMIOV]; omega)
    have : framesOf ms' = rest := by
      rw [e1, framesOf_append] at e3; exact List.append_cancel_left e3
    cases ms' with
    | nil => rw [e2, e4 rfl, e1]; simp
    | cons m ms'' =>
      have h5 := e5 m ms'' rfl
      rw [← this, framesOf_cons, List.length_append] at h5
      omega
  have hdo : do_subscriber (writev ([] : List (List Msg)).length)
      (fun avail => some ((framesOf [m1, m2]).take (min (k + 1) avail))) [] = .exit [m1, m2] := by
    rw [do_subscriber, if_neg (by decide), htake]
    rcases hq : framesOf [m1, m2] with _ | ⟨c, q⟩
    · exact absurd hq hne
    · show decode_frames _ ([] ++ c :: q) = _
      rw [← hq, List.nil_append, decode_frames, hdec]
      have := hw 0 [m1, m2] (by simpa using hn)
      simp only [List.length_nil, if_pos this]
  rw [hdo]
  exact ⟨_, rfl⟩

/-! ## C49 -/

/-- C49, what holds: if `write` takes the whole message at once, exactly the message is printed. -/
theorem C49_whole_write_partial (buf m : List Byte) (hm : m <+: buf) (k : Nat) (hk : m.length ≤ k) (ws : List (Option Nat)) :
    printLoop buf (some k :: ws) m.length [] = .done m := by
  obtain ⟨t, rfl⟩ := hm
  rw [printLoop]
  have : min k m.length = m.length := by omega
  simp [this]

/-- C49 is false: after a short write the beginning of the message is printed again instead of the rest. -/
theorem C49_counterexample_short_write : printLoop [1, 2, 3] [some 2, some 1] 3 [] = .done [1, 2, 1] := by decide +kernel

/-- C49 is false: a failed write is not noticed; the next call is asked to write one byte more than the message has,
and what the buffer holds behind it is printed. -/
theorem C49_counterexample_failed_write : printLoop [1, 2, 3, 77] [none, some 4] 3 [] = .done [1, 2, 3, 77] := by decide +kernel

/-- C49: as long as `write` keeps failing, the loop does not end. -/
theorem C49_failing_write_loops (buf : List Byte) (ws : List (Option Nat)) (h : ∀ w ∈ ws, w = none) (nr : Nat) (acc : List Byte) :
    printLoop buf ws nr acc = .more acc := by
  induction ws generalizing nr with
  | nil => rfl
  | cons w ws ih =>
    rw [h w (by simp), printLoop]
    exact ih (fun x hx => h x (by simp [hx])) _

theorem printLoop_pieces (buf : List Byte) : ∀ (ws : List (Option Nat)) (nr : Nat) (acc out : List Byte), printLoop buf ws nr acc = .done out →
    ∃ (ks : List Nat) (used rest : List (Option Nat)), ws = used ++ rest ∧ used.length = ks.length + used.count none ∧
      out = acc ++ ks.flatMap (fun n => buf.take n) ∧ ks.sum = nr + used.count none
  | [], _, _, _, h => by cases h
  | none :: ws, nr, acc, out, h => by
    rw [printLoop] at h
    obtain ⟨ks, used, rest, h1, h2, h3, h4⟩ := printLoop_pieces buf ws (nr + 1) acc out h
    exact ⟨ks, none :: used, rest, by rw [h1]; rfl, by simp [h2]; omega, h3, by simp [h4]; omega⟩
  | some k :: ws, nr, acc, out, h => by
    rw [printLoop] at h
    by_cases hn : nr - min k nr > 0
    · rw [if_pos hn] at h
      obtain ⟨ks, used, rest, h1, h2, h3, h4⟩ := printLoop_pieces buf ws _ _ out h
      exact ⟨min k nr :: ks, some k :: used, rest, by rw [h1]; rfl, by simp [h2]; omega, by rw [h3]; simp, by simp [h4]; omega⟩
    · rw [if_neg hn] at h
      cases h
      exact ⟨[min k nr], [some k], ws, rfl, by simp, by simp, by simp; omega⟩

/-- C49, the limit exactly: what is printed for a message is put together of beginnings of the buffer, one for each `write` that succeeds, with
as many bytes in all as the message has, and one more for every `write` that failed. -/
theorem C49_pieces (buf m : List Byte) (_hm : m <+: buf) (ws : List (Option Nat)) (out : List Byte) (h : printLoop buf ws m.length [] = .done out) :
    ∃ (ks : List Nat) (used rest : List (Option Nat)), ws = used ++ rest ∧ used.length = ks.length + used.count none ∧
      out = ks.flatMap (fun n => buf.take n) ∧ ks.sum = m.length + used.count none :=
  printLoop_pieces buf ws m.length [] out h

end Shr
