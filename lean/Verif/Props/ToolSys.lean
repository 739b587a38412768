import Verif.Proof.ToolDemo
import Verif.Props.Tool
import Verif.Props.ToolHex
/-!
# C50, C60, C63, C64, C68: shr-tool on real rings

`World`, `Proc`: `Model/ToolSys.lean`.  `w0.Start P`: the rings have any history, and the tool has just opened its handles.
`World.Reach P w0 w`: any interleaving of the tool's steps with calls of other processes leads from `w0` to `w`.  `w.Valid`: the calls satisfy
what the library demands of its callers.  `(w.rings i).taken k` and `(w.rings i).put k`: the messages that calls on handle `k` have returned,
and those of the successful writes on handle `k`, since the start, in order.
-/
namespace Shr

/-! ## C64: read -/

theorem readProc_tame (k : Nat) (hex block : Bool) (N : Nat) : (readProc k hex block N).Tame := by
  rintro t i op ⟨rfl, _, hc⟩
  exact ⟨k, READER, rfl, .inl ⟨rfl, hc⟩⟩

/-- What is printed for a message. -/
def shown (hex : Bool) (m : Msg) : ToolOut := if hex then .hex m else .raw m

theorem readStep_cases (hex block : Bool) (N n : Nat) (r : Except Int Msg) :
    (∀ rc, r = .error rc → readStep hex block N n r = ([], .done)) ∧
    (r = .ok [] → readStep hex block N n r = ([], if block then .run n else .done)) ∧
    (∀ m, m ≠ [] → r = .ok m → readStep hex block N n r = ([shown hex m], if 0 < N ∧ N ≤ n + 1 then .done else .run (n + 1))) := by
  refine ⟨?_, ?_, ?_⟩
  · rintro rc rfl; rfl
  · rintro rfl; cases block <;> simp [readStep]
  · rintro m hm rfl; cases hex <;> simp [readStep, hm, shown]

/-- **C64.** At any time, `read` (and `readhex`) has printed exactly the messages it has taken from the ring, in the order in which they
were read; and with -N it takes (and prints) no more than so many. -/
theorem C64_prints_what_it_takes {k N : Nat} {hex block : Bool} {w0 w : World (ReadSt × List ToolOut)}
    (h0 : w0.Start (readProc k hex block N)) (ht : w0.tool = (.run 0, []))
    (hr : World.Reach (readProc k hex block N) w0 w) (v : w.Valid) :
    w.tool.2 = ((w.rings 0).taken k).map (shown hex) ∧ (0 < N → ((w.rings 0).taken k).length ≤ N) ∧
    (∀ n, w.tool.1 = .run n → n = ((w.rings 0).taken k).length ∧ (0 < N → n < N)) := by
  refine hr.induct (readProc_tame k hex block N) h0
    (J := fun w => w.tool.2 = ((w.rings 0).taken k).map (shown hex) ∧ (0 < N → ((w.rings 0).taken k).length ≤ N) ∧
      (∀ n, w.tool.1 = .run n → n = ((w.rings 0).taken k).length ∧ (0 < N → n < N))) ?_ ?_ v
  · have : (w0.rings 0).taken k = [] := by unfold RingLog.taken; rw [(h0.new 0).1]; rfl
    rw [ht, this]
    refine ⟨rfl, by simp, ?_⟩
    rintro n ⟨rfl⟩; exact ⟨rfl, id⟩
  · intro w w' inv v hst ⟨j1, j2, j3⟩
    cases hst with
    | @other i op s o hne hs =>
      have : (({ w with rings := upd w.rings i ((w.rings i).add s op o) } : World _).rings 0).taken k = (w.rings 0).taken k := by
        dsimp only
        by_cases e : (0 : Nat) = i
        · subst e
          rw [upd_same', RingLog.taken_add (inv.len 0), if_neg (hne k READER rfl), List.append_nil]
        · rw [upd_other _ _ e]
      rw [this]; exact ⟨j1, j2, j3⟩
    | @call i op s o t hc hs hret =>
      obtain ⟨rfl, ⟨n, hn⟩, hc⟩ := hc
      obtain ⟨⟨buf, h1, hbl⟩, _⟩ := inv.tool_read v.at_ring hs rfl hc
      obtain ⟨rc, iov, buf', rfl, hres⟩ := h1.result
      obtain ⟨c1, c2⟩ := j3 n hn
      dsimp only
      rw [upd_same', RingLog.taken_add (inv.len 0), if_pos hc.handle]
      unfold readProc at hret
      simp only [hn] at hret
      subst hret
      dsimp only
      obtain ⟨g1, g2, g3⟩ := readStep_cases hex block N n (readResult rc buf')
      rcases hres with ⟨_, e1, e2⟩ | ⟨_, e1, e2⟩ | ⟨m, hm, _, _, e1, e2⟩
      · rw [g1 _ e1, e2]
        simp only [List.append_nil]
        refine ⟨j1, j2, ?_⟩
        rintro n' ⟨⟩
      · rw [g2 e1, e2]
        simp only [List.append_nil]
        refine ⟨j1, j2, ?_⟩
        intro n' hn'
        split at hn'
        · cases hn'; exact ⟨c1, c2⟩
        · cases hn'
      · rw [g3 m hm e1, e2]
        refine ⟨by simp [j1], ?_, ?_⟩
        · intro hN
          have := c2 hN
          simp; omega
        · intro n' hn'
          dsimp only at hn'
          split at hn'
          · cases hn'
          · rename_i hx
            cases hn'
            refine ⟨by simp [c1], fun hN => ?_⟩
            by_contra hc
            exact hx ⟨hN, by omega⟩
    | event h => exact h.elim

/-- **C64.** `read` stops only when it has printed as many messages as asked for, when `shr_read` fails, or, without -b, when
there is nothing to read: in the step in which it stops, the last is the case only if at that moment its handle had nothing unread. -/
theorem C64_stops_only {k N : Nat} {hex block : Bool} {w0 w w' : World (ReadSt × List ToolOut)}
    (h0 : w0.Start (readProc k hex block N)) (ht : w0.tool = (.run 0, []))
    (hr : World.Reach (readProc k hex block N) w0 w) (v : w'.Valid) (hst : World.Step (readProc k hex block N) w w')
    (hrun : w.tool.1 ≠ .done) (hdone : w'.tool.1 = .done) :
    (0 < N ∧ ((w'.rings 0).taken k).length = N) ∨
    (∃ rc iov buf, rc < 0 ∧ (w'.rings 0).outs.getLast? = some (.read rc iov buf)) ∨
    (block = false ∧ ∃ h, (w.rings 0).sys.hs k = .live h ∧ (w.rings 0).sys.ring.readableBy h = []) := by
  have inv := hr.inv (readProc_tame k hex block N) h0 (v.before hst)
  obtain ⟨_, _, j3⟩ := C64_prints_what_it_takes h0 ht hr (v.before hst)
  cases hst with
  | other hne hs => exact absurd hdone hrun
  | @call i op s o t hc hs hret =>
    obtain ⟨rfl, ⟨n, hn⟩, hc⟩ := hc
    obtain ⟨⟨_, h1, _⟩, _⟩ := inv.tool_read v.at_ring hs rfl hc
    obtain ⟨rc, iov, buf', rfl, hres⟩ := h1.result
    obtain ⟨c1, c2⟩ := j3 n hn
    dsimp only at hdone ⊢
    rw [upd_same', RingLog.taken_add (inv.len 0), if_pos hc.handle]
    unfold readProc at hret
    simp only [hn] at hret
    subst hret
    dsimp only at hdone
    obtain ⟨g1, g2, g3⟩ := readStep_cases hex block N n (readResult rc buf')
    rcases hres with ⟨hlt, e1, e2⟩ | ⟨hz, e1, e2⟩ | ⟨m, hm, _, _, e1, e2⟩
    · exact .inr (.inl ⟨rc, iov, buf', hlt, by simp [RingLog.add]⟩)
    · subst hz
      rw [g2 e1] at hdone
      right; right
      cases hb : block with
      | true => rw [hb] at hdone; cases hdone
      | false =>
        refine ⟨rfl, ?_⟩
        obtain ⟨buf, env, hbl, rfl⟩ := hc
        obtain ⟨outs, er⟩ := inv.run 0
        obtain ⟨hd, hk, hf⟩ := inv.own 0 k READER rfl
        have hlk : env.lockOk = true := by
          obtain ⟨sp, x⟩ := Valid.at v.at_ring er hs
          obtain ⟨sh, hsk, hh⟩ := x.rel.live hk
          have ho := x.out
          rw [step_readv_eq hsk (by rw [← hh.flags, hf]; decide)] at ho
          by_contra hl
          unfold Spec.readv at ho
          rw [if_pos (.inr (.inr (by simpa using hl)))] at ho
          cases ho
        refine ⟨hd, hk, ?_⟩
        exact ((C11_zero_iff_nothing_unread v.at_ring er hs hk (by rw [hf]; decide) (by rintro rfl; simp [BUFLEN] at hbl) (by decide) hlk).1
          (by rw [hf]; decide)).mp ⟨_, _, rfl⟩
    · rw [g3 m hm e1] at hdone
      dsimp only at hdone
      split at hdone
      · rename_i hx
        left
        refine ⟨hx.1, ?_⟩
        have := c2 hx.1
        rw [e2, List.length_append, ← c1]
        simp; omega
      · cases hdone
  | event h => exact h.elim

/-! ## C60: write -/

theorem writeProc_tame (k : Nat) : (writeProc k).Tame := by
  rintro t i op ⟨rfl, m, rest, _, hc⟩
  exact ⟨k, WRITER, rfl, .inr ⟨rfl, [m], hc⟩⟩

/-- **C60.** What `write`, `writehex` and `writefile` put into the ring, whatever other processes do meanwhile: at any time the first so many of the
messages; all of them when it is done; and if a call fails, those before it (the message of the failed call may have been stored, too: C03). -/
theorem C60_written_to_ring {k : Nat} {ms : List Msg} {w0 w : World WriterSt} (h0 : w0.Start (writeProc k)) (ht : w0.tool = .run ms)
    (hr : World.Reach (writeProc k) w0 w) (v : w.Valid) :
    (∀ rest, w.tool = .run rest → (w.rings 0).put k ++ rest = ms) ∧ (w.tool = .failed → ∃ m rest, (w.rings 0).put k ++ m :: rest = ms) := by
  refine hr.induct (writeProc_tame k) h0
    (J := fun w => (∀ rest, w.tool = .run rest → (w.rings 0).put k ++ rest = ms) ∧
      (w.tool = .failed → ∃ m rest, (w.rings 0).put k ++ m :: rest = ms)) ?_ ?_ v
  · have : (w0.rings 0).put k = [] := by unfold RingLog.put; rw [(h0.new 0).1]; rfl
    rw [ht, this]
    exact ⟨by rintro rest ⟨rfl⟩; rfl, by rintro ⟨⟩⟩
  · intro w w' inv v hst ⟨j1, j2⟩
    cases hst with
    | @other i op s o hne hs =>
      have : (({ w with rings := upd w.rings i ((w.rings i).add s op o) } : World _).rings 0).put k = (w.rings 0).put k := by
        dsimp only
        by_cases e : (0 : Nat) = i
        · subst e
          rw [upd_same', RingLog.put_add (inv.len 0), if_neg (hne k WRITER rfl), List.append_nil]
        · rw [upd_other _ _ e]
      rw [this]; exact ⟨j1, j2⟩
    | @call i op s o t hc hs hret =>
      obtain ⟨rfl, m, rest, hm, hc⟩ := hc
      obtain ⟨h1, _⟩ := inv.tool_write v.at_ring hs rfl hc
      have j1 := j1 _ hm
      dsimp only
      rw [upd_same', RingLog.put_add (inv.len 0), if_pos hc.handle]
      unfold writeProc at hret
      simp only [hm] at hret
      rcases h1.result hc with ⟨rfl, e⟩ | ⟨rc, hrc, rfl, e⟩ | ⟨rc, hrc, rfl, e⟩
      · simp only at hret
        rw [e, List.append_nil]
        subst hret
        exact ⟨by rintro _ ⟨rfl⟩; exact j1, by rintro ⟨⟩⟩
      · simp only [if_pos hrc] at hret
        subst hret
        rw [e, List.append_nil]
        exact ⟨by rintro _ ⟨⟩, fun _ => ⟨m, rest, j1⟩⟩
      · simp only [if_neg hrc] at hret
        subst hret
        rw [e]
        refine ⟨?_, by rintro ⟨⟩⟩
        rintro _ ⟨rfl⟩
        rw [← j1]; simp
    | event h => exact h.elim

/-! ## C50: tee -/

theorem teeProc_tame (kA kB kC : Nat) : (teeProc kA kB kC).Tame := by
  intro t i op hc
  cases t with
  | idle => obtain ⟨rfl, hc⟩ := hc; exact ⟨kA, READER, rfl, .inl ⟨rfl, hc⟩⟩
  | toB m => obtain ⟨rfl, hc⟩ := hc; exact ⟨kB, WRITER, rfl, .inr ⟨rfl, [m], hc⟩⟩
  | toC m => obtain ⟨rfl, hc⟩ := hc; exact ⟨kC, WRITER, rfl, .inr ⟨rfl, [m], hc⟩⟩
  | stopped => exact hc.elim

/-- What `tee` has read and written, in each of its states. -/
def TeeJ (t : TeeSt) (A B C : List Msg) : Prop :=
  match t with
  | .idle => A = B ∧ A = C
  | .toB m => A = B ++ [m] ∧ B = C
  | .toC m => A = B ∧ A = C ++ [m]
  | .stopped => C <+: B ∧ B <+: A ∧ A.length ≤ C.length + 1

theorem TeeJ.weak {t : TeeSt} {A B C : List Msg} (h : TeeJ t A B C) : C <+: B ∧ B <+: A ∧ A.length ≤ C.length + 1 := by
  cases t with
  | idle => obtain ⟨rfl, rfl⟩ := h; exact ⟨List.prefix_refl _, List.prefix_refl _, by omega⟩
  | toB m => obtain ⟨rfl, rfl⟩ := h; exact ⟨List.prefix_refl _, List.prefix_append _ _, by simp⟩
  | toC m => obtain ⟨rfl, h⟩ := h; rw [h]; exact ⟨List.prefix_append _ _, List.prefix_refl _, by simp⟩
  | stopped => exact h

theorem tee_inv {kA kB kC : Nat} {w0 w : World TeeSt} (h0 : w0.Start (teeProc kA kB kC)) (ht : w0.tool = .idle)
    (hr : World.Reach (teeProc kA kB kC) w0 w) (v : w.Valid) :
    TeeJ w.tool ((w.rings 0).taken kA) ((w.rings 1).put kB) ((w.rings 2).put kC) := by
  refine hr.induct (teeProc_tame kA kB kC) h0 (J := fun w => TeeJ w.tool ((w.rings 0).taken kA) ((w.rings 1).put kB) ((w.rings 2).put kC)) ?_ ?_ v
  · have e0 : (w0.rings 0).taken kA = [] := by unfold RingLog.taken; rw [(h0.new 0).1]; rfl
    have e1 : (w0.rings 1).put kB = [] := by unfold RingLog.put; rw [(h0.new 1).1]; rfl
    have e2 : (w0.rings 2).put kC = [] := by unfold RingLog.put; rw [(h0.new 2).1]; rfl
    rw [ht, e0, e1, e2]; exact ⟨rfl, rfl⟩
  · intro w w' inv v hst j
    cases hst with
    | @other i op s o hne hs =>
      dsimp only
      have e0 : (upd w.rings i ((w.rings i).add s op o) 0).taken kA = (w.rings 0).taken kA := by
        by_cases e : (0 : Nat) = i
        · subst e
          rw [upd_same', RingLog.taken_add (inv.len 0), if_neg (hne kA READER rfl), List.append_nil]
        · rw [upd_other _ _ e]
      have e1 : (upd w.rings i ((w.rings i).add s op o) 1).put kB = (w.rings 1).put kB := by
        by_cases e : (1 : Nat) = i
        · subst e
          rw [upd_same', RingLog.put_add (inv.len 1), if_neg (hne kB WRITER rfl), List.append_nil]
        · rw [upd_other _ _ e]
      have e2 : (upd w.rings i ((w.rings i).add s op o) 2).put kC = (w.rings 2).put kC := by
        by_cases e : (2 : Nat) = i
        · subst e
          rw [upd_same', RingLog.put_add (inv.len 2), if_neg (hne kC WRITER rfl), List.append_nil]
        · rw [upd_other _ _ e]
      rw [e0, e1, e2]; exact j
    | @call i op s o t hc hs hret =>
      dsimp only
      have hret : t = teeRet w.tool o := hret
      subst hret
      cases hw : w.tool with
      | idle =>
        rw [hw] at hc j
        obtain ⟨rfl, hc⟩ := hc
        obtain ⟨⟨buf, h1, hbl⟩, _⟩ := inv.tool_read v.at_ring hs rfl hc
        rw [upd_same', upd_other _ _ (by decide), upd_other _ _ (by decide), RingLog.taken_add (inv.len 0), if_pos hc.handle]
        obtain ⟨rc, iov, buf', rfl, hres⟩ := h1.result
        obtain ⟨j1, j2⟩ := j
        rcases hres with ⟨hlt, _, e2⟩ | ⟨hz, _, e2⟩ | ⟨m, hm, hp, hb, _, e2⟩
        · rw [e2, List.append_nil, teeRet, if_pos hlt]
          exact TeeJ.weak (t := .idle) ⟨j1, j2⟩
        · rw [e2, List.append_nil, teeRet, if_neg (by omega), if_pos hz]
          exact ⟨j1, j2⟩
        · rw [e2, teeRet, if_neg (by omega), if_neg (by omega), hb]
          exact ⟨by rw [j1], by rw [← j1, j2]⟩
      | toB m =>
        rw [hw] at hc j
        obtain ⟨rfl, hc⟩ := hc
        obtain ⟨h1, _⟩ := inv.tool_write v.at_ring hs rfl hc
        rw [upd_same', upd_other _ _ (by decide), upd_other _ _ (by decide), RingLog.put_add (inv.len 1), if_pos hc.handle]
        obtain ⟨j1, j2⟩ := j
        rcases h1.result hc with ⟨rfl, e⟩ | ⟨rc, hrc, rfl, e⟩ | ⟨rc, hrc, rfl, e⟩
        · rw [e, List.append_nil]; exact ⟨j1, j2⟩
        · rw [e, List.append_nil, teeRet, if_pos hrc]; exact TeeJ.weak (t := .toB m) ⟨j1, j2⟩
        · rw [e, teeRet, if_neg hrc]; exact ⟨j1, by rw [j1, j2]⟩
      | toC m =>
        rw [hw] at hc j
        obtain ⟨rfl, hc⟩ := hc
        obtain ⟨h1, _⟩ := inv.tool_write v.at_ring hs rfl hc
        rw [upd_same', upd_other _ _ (by decide), upd_other _ _ (by decide), RingLog.put_add (inv.len 2), if_pos hc.handle]
        obtain ⟨j1, j2⟩ := j
        rcases h1.result hc with ⟨rfl, e⟩ | ⟨rc, hrc, rfl, e⟩ | ⟨rc, hrc, rfl, e⟩
        · rw [e, List.append_nil]; exact ⟨j1, j2⟩
        · rw [e, List.append_nil, teeRet, if_pos hrc]; exact TeeJ.weak (t := .toC m) ⟨j1, j2⟩
        · rw [e, teeRet, if_neg hrc]; exact ⟨j1, j2⟩
      | stopped => rw [hw] at hc; exact hc.elim
    | event h => exact h.elim

/-- **C50.** What is missing: if a write to B or C fails (for instance because the message is larger than the ring), the message that was read
from A is lost (`C50_counterexample`).  What holds, whatever other processes do with the three rings: between two messages, what `tee` has
successfully written to B, and to C, is exactly what it has read from A, in order; at any time, also after it has stopped, what
it has written to C is the beginning of what it has written to B, this of what it has read from A, and they differ by at most the last message. -/
theorem C50_tee_partial {kA kB kC : Nat} {w0 w : World TeeSt} (h0 : w0.Start (teeProc kA kB kC)) (ht : w0.tool = .idle)
    (hr : World.Reach (teeProc kA kB kC) w0 w) (v : w.Valid) :
    (w.tool = .idle → (w.rings 1).put kB = (w.rings 0).taken kA ∧ (w.rings 2).put kC = (w.rings 0).taken kA) ∧
    (w.rings 2).put kC <+: (w.rings 1).put kB ∧ (w.rings 1).put kB <+: (w.rings 0).taken kA ∧
    ((w.rings 0).taken kA).length ≤ ((w.rings 2).put kC).length + 1 := by
  have j := tee_inv h0 ht hr v
  refine ⟨fun h => ?_, j.weak⟩
  rw [h] at j
  exact ⟨j.1.symm, j.2.symm⟩

/-- **C50.** `tee` stops only because a call failed: in the step in which it stops, the library has returned a negative number to it. -/
theorem C50_stops_only {kA kB kC : Nat} {w w' : World TeeSt} (hst : World.Step (teeProc kA kB kC) w w')
    (h1 : w.tool ≠ .stopped) (h2 : w'.tool = .stopped) :
    ∃ i rc, rc < 0 ∧ ((w'.rings i).outs.getLast? = some (.wrote rc) ∨ ∃ iov buf, (w'.rings i).outs.getLast? = some (.read rc iov buf)) := by
  cases hst with
  | other _ _ => exact absurd h2 h1
  | @call i op s o t hc hs hret =>
    refine ⟨i, ?_⟩
    dsimp only
    rw [upd_same']
    have hl : ((w.rings i).add s op o).outs.getLast? = some o := by simp [RingLog.add]
    rw [hl]
    have hret : t = teeRet w.tool o := hret
    dsimp only at h2
    rw [hret] at h2
    clear hret hl hc
    cases hw : w.tool <;> rw [hw] at h2 <;> cases o <;> simp only [teeRet] at h2
    all_goals first
      | (cases h2; done)
      | (exact absurd hw h1)
      | (split at h2
         · rename_i hlt; first | exact ⟨_, hlt, .inl rfl⟩ | exact ⟨_, hlt, .inr ⟨_, _, rfl⟩⟩
         · first | (cases h2; done) | (split at h2 <;> cases h2))
  | event h => exact h.elim

theorem tee_start {t : TeeSt} : World.Start (teeProc 1 1 1) ⟨demoRings, t⟩ := by
  refine start_of demoAs demoPres demoRings_eq demo_valid ?_
  intro i k f h
  apply demo_own
  unfold teeProc at h
  dsimp only at h
  repeat' split at h
  all_goals cases h
  · exact .inl ⟨by assumption, rfl, rfl⟩
  all_goals exact .inr ⟨by omega, rfl, rfl⟩

theorem tee_call_read {kA kB kC : Nat} {buf : List Byte} {env : Env} (h : buf.length = BUFLEN) :
    (teeProc kA kB kC).call .idle 0 (.readv kA buf 1 env) := ⟨rfl, buf, env, h, rfl⟩

theorem tee_ret_read {kA kB kC : Nat} {op : Op} {o : Out} {m : Msg} {buf' : List Byte} (ho : o = .read m.length [(0, m.length)] buf')
    (hb : buf'.take m.length = m) (hm : m ≠ []) : (teeProc kA kB kC).ret .idle op o (.toB m) := by
  have : 0 < m.length := List.length_pos_iff.mpr hm
  subst ho
  show _ = teeRet .idle _
  rw [teeRet, if_neg (by omega), if_neg (by omega), Int.toNat_natCast, hb]

/-- **C50 is false.** `tee` reads a message of four bytes from A; B is a ring of two bytes, so that the write to B fails; `tee` stops: the message is
in neither B nor C, and it is not in A any more. -/
theorem C50_counterexample : ∃ w0 w : World TeeSt, w0.Start (teeProc 1 1 1) ∧ w0.tool = .idle ∧ World.Reach (teeProc 1 1 1) w0 w ∧ w.Valid ∧
    w.tool = .stopped ∧ (∃ h, (w0.rings 0).sys.hs 1 = .live h ∧ (w0.rings 0).sys.ring.readableBy h = [[4, 5, 6, 7], [8, 9, 10, 11]]) ∧ (w.rings 0).taken 1 = [[4, 5, 6, 7]] ∧
    (∃ h, (w.rings 0).sys.hs 1 = .live h ∧ (w.rings 0).sys.ring.readableBy h = [[8, 9, 10, 11]]) ∧ (w.rings 1).put 1 = [] ∧ (w.rings 2).put 1 = [] := by
  have v0 : Valid demoA (demoOps ++ [] ++ [.readv 1 toolBuf 1 {}]) := by
    have := valid_read (demo_valid 0) (k := 1) (env := {}) (by decide) toolBuf_length
    rw [List.append_nil]; exact this
  have v1 : Valid demoS (demoPreW ++ [] ++ [wr 1 [[4, 5, 6, 7]]]) := valid_of (by decide +kernel)
  have hread := demo_read (a := demoA) (ops := demoOps) (k := 1) (m := [4, 5, 6, 7]) (U := [[8, 9, 10, 11]])
    (by rw [List.append_nil] at v0; exact v0) (by decide +kernel) (by decide +kernel) (by decide +kernel) (by decide)
  obtain ⟨⟨buf', ho, hb⟩, h', hk', hU'⟩ := hread
  have r1 := Reach_call (P := teeProc 1 1 1) (w0 := ⟨demoRings, .idle⟩) (t := .idle) (t' := .toB [4, 5, 6, 7]) (i := 0) (a := demoA) (pre := demoOps) (ops := []) .refl
    (demoRings_eq 0) v0 (tee_call_read toolBuf_length) (tee_ret_read (by rw [List.append_nil]; exact ho) hb (by decide))
  have r2 := Reach_call (P := teeProc 1 1 1) (t' := .stopped) (i := 1) r1 (a := demoS) (pre := demoPreW) (ops := []) (by rw [upd_other _ _ (by decide)]; exact demoRings_eq 1) v1 ⟨rfl, {}, {}, rfl⟩ (by
      show _ = teeRet _ _
      have : lastOut demoS (demoPreW ++ [] ++ [wr 1 [[4, 5, 6, 7]]]) = .wrote (-1) := by decide +kernel
      rw [this]; rfl)
  refine ⟨⟨demoRings, .idle⟩, _, tee_start, rfl, r2, ?_, rfl, ?_, ?_, ?_, ?_, ?_⟩
  · intro i
    dsimp only
    by_cases h1 : i = 1
    · subst h1; rw [upd_same']; exact v1
    · rw [upd_other _ _ h1]
      by_cases h0 : i = 0
      · subst h0; rw [upd_same']; rw [List.append_assoc] at v0; exact v0
      · rw [upd_other _ _ h0, demoRings_eq]
        have := demo_valid i
        show Valid (demoAs i) (demoPres i ++ [])
        rw [List.append_nil]; exact this
  · dsimp only
    rw [demoRings_zero]
    exact ⟨(final demoA demoOps).handle 1, live_handle (by decide +kernel), by decide +kernel⟩
  · dsimp only
    rw [upd_other _ _ (by decide), upd_same', ringAfter_taken1 (k := 1) v0 rfl, List.append_nil, ho]
    simp only [Out.msgs, List.map_cons, List.map_nil, sliceOf, List.drop_zero]
    rw [hb]
  · refine ⟨h', ?_⟩
    dsimp only
    rw [upd_other _ _ (by decide), upd_same', ringAfter_sys, List.nil_append]
    exact ⟨hk', hU'⟩
  · dsimp only
    rw [upd_same']
    unfold RingLog.put
    rw [ringAfter_outs1 v1]
    decide +kernel
  · dsimp only
    rw [upd_other _ _ (by decide), upd_other _ _ (by decide)]
    exact (demoRings_nil 2 1).2

/-! ## The theorems apply -/

/-- A `read` that has printed the first of two messages. -/
example : ∃ w0 w : World (ReadSt × List ToolOut), w0.Start (readProc 1 false true 0) ∧ w0.tool = (.run 0, []) ∧
    World.Reach (readProc 1 false true 0) w0 w ∧ w.Valid ∧ w.tool = (.run 1, [.raw [4, 5, 6, 7]]) := by
  have v0 : Valid demoA (demoOps ++ [] ++ [.readv 1 toolBuf 1 {}]) := by
    have := valid_read (demo_valid 0) (k := 1) (env := {}) (by decide) toolBuf_length
    rw [List.append_nil]; exact this
  obtain ⟨⟨buf', ho, hb⟩, _⟩ := demo_read (a := demoA) (ops := demoOps) (k := 1) (m := [4, 5, 6, 7]) (U := [[8, 9, 10, 11]])
    (by rw [List.append_nil] at v0; exact v0) (by decide +kernel) (by decide +kernel) (by decide +kernel) (by decide)
  have r1 := Reach_call (P := readProc 1 false true 0) (w0 := ⟨demoRings, (.run 0, [])⟩) (t := (.run 0, [])) (t' := (.run 1, [.raw [4, 5, 6, 7]]))
    (i := 0) (a := demoA) (pre := demoOps) (ops := []) .refl
    (demoRings_eq 0) v0 ⟨rfl, ⟨0, rfl⟩, toolBuf, {}, toolBuf_length, rfl⟩ (by
      rw [List.append_nil, ho]
      generalize hm : ([4, 5, 6, 7] : Msg) = m at *
      have hp : (0 : Int) < m.length := by rw [← hm]; decide
      show _ = (_, _)
      rw [readResult, if_neg (by omega), Int.toNat_natCast, hb]
      rw [← hm]; rfl)
  refine ⟨⟨demoRings, (.run 0, [])⟩, _, ?_, rfl, r1, ?_, rfl⟩
  · refine start_of demoAs demoPres demoRings_eq demo_valid ?_
    intro i k f h
    apply demo_own
    unfold readProc at h
    dsimp only at h
    split at h
    · cases h; exact .inl ⟨by assumption, rfl, rfl⟩
    · cases h
  · intro i
    dsimp only
    by_cases h0 : i = 0
    · subst h0; rw [upd_same']; rw [List.append_assoc] at v0; exact v0
    · rw [upd_other _ _ h0, demoRings_eq]
      have := demo_valid i
      show Valid (demoAs i) (demoPres i ++ [])
      rw [List.append_nil]; exact this

/-- A `write` that has written one message; the next one is too large and the call fails. -/
example : ∃ w0 w : World WriterSt, w0.Start (writeProc 1) ∧ w0.tool = .run [[1], [2, 3, 4], [5]] ∧
    World.Reach (writeProc 1) w0 w ∧ w.Valid ∧ w.tool = .failed ∧ (w.rings 0).put 1 = [[1]] := by
  have v1 : Valid demoS (demoPreW ++ [] ++ [wr 1 [[1]]]) := valid_of (by decide +kernel)
  have v2 : Valid demoS (demoPreW ++ ([] ++ [wr 1 [[1]]]) ++ [wr 1 [[2, 3, 4]]]) := valid_of (by decide +kernel)
  have r1 := Reach_call (P := writeProc 1) (w0 := ⟨fun _ => ringAfter demoS demoPreW [], .run [[1], [2, 3, 4], [5]]⟩)
    (t' := .run [[2, 3, 4], [5]]) (i := 0) .refl rfl v1 ⟨rfl, _, _, rfl, {}, {}, rfl⟩ (by
      have : lastOut demoS (demoPreW ++ [] ++ [wr 1 [[1]]]) = .wrote 1 := by decide +kernel
      rw [this]; rfl)
  have r2 := Reach_call (P := writeProc 1) (t' := .failed) (i := 0) r1 (upd_same' _ _ _) v2 ⟨rfl, _, _, rfl, {}, {}, rfl⟩ (by
      have : lastOut demoS (demoPreW ++ ([] ++ [wr 1 [[1]]]) ++ [wr 1 [[2, 3, 4]]]) = .wrote (-1) := by decide +kernel
      rw [this]; rfl)
  refine ⟨_, _, ?_, rfl, r2, ?_, rfl, ?_⟩
  · refine start_of (fun _ => demoS) (fun _ => demoPreW) (fun _ => rfl) (fun _ => valid_of (by decide +kernel)) ?_
    intro i k f h
    unfold writeProc at h
    dsimp only at h
    split at h
    · cases h; decide +kernel
    · cases h
  · intro i
    dsimp only
    by_cases h0 : i = 0
    · subst h0; rw [upd_same']; rw [List.append_assoc] at v2; exact v2
    · rw [upd_other _ _ h0, upd_other _ _ h0]
      exact valid_of (by decide +kernel)
  · dsimp only
    rw [upd_same']
    decide +kernel

end Shr
