import Verif.Props.WakeDemo
/-! # C85: a process killed inside a call, seen by the others that use the ring, wait on it and wake each other -/
namespace Shr

/-- A reachable system in which the process that makes the step `x` has just been killed, inside the step. -/
structure JustDied (a : InitArgs) (pid : Nat → Nat) (hist : List Op) (w : WSys) (x : WOp) (w' : WSys) : Prop where
  before : CReach a pid hist w
  death : ∃ ops, ADeath a pid hist w x ops w' ∧ w.b.CleanRun ops

theorem JustDied.after {a : InitArgs} {pid : Nat → Nat} {hist : List Op} {w w' : WSys} {x : WOp} (h : JustDied a pid hist w x w') :
    CReach a pid (hist ++ x.issued w) w' := by
  obtain ⟨ops, h1, h2⟩ := h.death
  exact .dies h.before h1 h2

/-- **C85.** The handles of other processes and their waiting calls are as before, and no datagram for them is lost. -/
theorem C85_others_unharmed {a : InitArgs} {pid : Nat → Nat} {hist : List Op} {w w' : WSys} {x : WOp} (h : JustDied a pid hist w x w') {j : Nat}
    (hj : pid j ≠ pid x.actor) :
    w'.sys.hs j = w.sys.hs j ∧ w'.blk j = w.blk j ∧
    ∀ i, i = 2 * j ∨ i = 2 * j + 1 → w.b.Waiting i (i % 2) (pid j) → w'.b.Waiting i (i % 2) (pid j) ∧ w.b.pending i ≤ w'.b.pending i := by
  obtain ⟨hc, ops, hd, hcl⟩ := h
  obtain ⟨sp, hr⟩ := hc.any.state
  obtain ⟨r, b', hcp⟩ := hd.dies.corpse hr.inv hd.wf
  obtain ⟨rfl, _, _, hcut, hown⟩ := hcp
  refine ⟨?_, ?_, fun i hi ⟨t, ht⟩ => ⟨⟨t, ?_⟩, ?_⟩⟩
  · unfold WSys.corpse Sys.discard; dsimp only
    cases w.sys.hs j with
    | live hd => dsimp only; rw [if_neg (by simpa using hj)]
    | _ => rfl
  · unfold WSys.corpse; dsimp only
    cases w.sys.hs j with
    | live hd => dsimp only; rw [if_neg hj]
    | _ => rfl
  · obtain ⟨pre, hpre, hts⟩ := hcut.ts
    show b'.ts i = _
    rw [hts]
    refine runs_wait ht fun x hx => ?_
    rcases hpre x hx with h | rfl
    · exact hown x h i _ (fun e => hj (by congr 1; omega)) (fun e => hj (by congr 1; omega))
    · exact fun e => hj e.symm
  · refine hcut.pending hc.breach hcl ht hj fun x hx => ?_
    exact hown x hx i _ (fun e => hj (by congr 1; omega)) (fun e => hj (by congr 1; omega))

/-- **C85.** Nothing of the victim is left: no open handle, no waiting call on one. -/
theorem C85_victim_is_gone {a : InitArgs} {pid : Nat → Nat} {hist : List Op} {w w' : WSys} {x : WOp} (h : JustDied a pid hist w x w') {j : Nat}
    (hj : pid j = pid x.actor) : (∀ hd, w'.sys.hs j ≠ .live hd) ∧ w'.blk j = none := by
  obtain ⟨hc, ops, hd, hcl⟩ := h
  obtain ⟨sp, hr⟩ := hc.any.state
  obtain ⟨r, b', hcp⟩ := hd.dies.corpse hr.inv hd.wf
  have h1 : ∀ hd, w'.sys.hs j ≠ .live hd := by
    rw [hcp.eq]
    intro hd
    unfold WSys.corpse Sys.discard; dsimp only
    cases w.sys.hs j with
    | live hd => dsimp only; rw [if_pos (by simpa using hj)]; simp
    | _ => simp
  refine ⟨h1, ?_⟩
  obtain ⟨sp', hr', _⟩ := death_inv hr hd
  cases e : w'.blk j with
  | none => rfl
  | some v =>
    obtain ⟨op, b⟩ := v
    obtain ⟨_, _, sh, e1, _⟩ := hr'.inv.blk j op b e
    have := hr'.inv.rel.hs j
    rw [e1] at this
    cases e2 : w'.sys.hs j with
    | live hd => exact absurd e2 (h1 hd)
    | never => rw [e2] at this; exact this.elim
    | gone b => rw [e2] at this; exact this.elim

/-- **C85.** The ring's control block is consistent, and every call that a client may make afterwards, and every woken call that goes on, completes: returns or waits.
(On a farm ring: as long as there are fewer than 2^64 messages.) -/
theorem C85_ring_works {a : InitArgs} {pid : Nat → Nat} {hist : List Op} {w w' : WSys} {x : WOp} (h : JustDied a pid hist w x w') (os : WOs) :
    w'.sys.ring.Consistent ∧ (a.flags.has SHR_FARM = true → w'.sys.ring.FarmSound) ∧
    ∀ op, (a.flags.has SHR_FARM = true → (hist ++ x.issued w ++ [op]).length * offered (hist ++ x.issued w ++ [op]) < W) →
      (w'.Callable op → op.WF a.appsize → ∃ w2 o ops, WSys.Step pid w' (.call op os) w2 o ops) ∧
      (∀ k env, w'.blk k = some (op, true) → ∃ w2 o ops, WSys.Step pid w' (.resume k env os) w2 o ops) := by
  obtain ⟨h1, h2⟩ := C55_no_fault h.after.any os
  obtain ⟨sp, hr⟩ := h.after.any.state
  refine ⟨hr.inv.rel.ring.consistent, fun hf => hr.inv.rel.ring.farmSound ?_, fun op hc => ⟨fun a1 a2 => h1 op a1 a2 hc, fun k env a1 => h2 k op env a1 hc⟩⟩
  unfold Spec.farm; rw [hr.inv.gf, gflags_farm]; exact hf

/-- **C85.** The wake-up that the victim owed is made up for by the next successful one.  After any further steps and deaths, once a write wakes
successfully (`C34_successful_write_wakes` says when), no reader that sleeps with nothing pending has anything to read; once a read does, no sleeping writer with nothing pending
has room for what it wants to write. -/
theorem C85_next_wake_makes_up {a : InitArgs} {pid : Nat → Nat} {hist : List Op} {w w' : WSys} {x : WOp} {o : Out} {ops : List BOp} (h : CReach a pid hist w)
    (hs : AStep a pid hist w x w' o ops) (hc : w.b.CleanRun ops) :
    (w.b.Woke 0 ops → ∀ k hd buf niov env, w'.sys.hs k = .live hd → w'.blk k = some (.readv k buf niov env, false) → w'.b.pending (2 * k) = 0 →
      w'.sys.ring.readableBy hd = []) ∧
    (w.b.Woke 1 ops → ∀ k op, w'.blk k = some (op, false) → (∀ buf niov env, op ≠ .readv k buf niov env) → w'.b.pending (2 * k + 1) = 0 →
      ¬ Fits w'.sys.ring.n w'.sys.ring.mm w'.sys.ring.unreadMsgs (w'.sys.wants op)) :=
  ⟨fun hw _ _ _ _ _ hk hb hp => C34_blocked_reader_partial (.renews h hs hc hw) hk hb hp,
   fun hw _ _ hb hwr hp => C35_blocked_writer_partial (.renews h hs hc hw) hb hwr hp⟩

/-! ## A writer killed before it wakes -/

/-- What a call leaves in the ring, or nothing if it faults. -/
def WSys.died (w : WSys) (pid : Nat → Nat) (op : Op) (os : WOs) : WSys :=
  w.corpse pid (pid op.handle) ((w.sys.points (w.fill pid os op)).getLast?.getD w.sys.ring) (w.b.exit (pid op.handle))

theorem died_dies {a : InitArgs} {pid : Nat → Nat} {hist : List Op} {w w1 : WSys} {op : Op} {os : WOs} {o : Out} {ops : List BOp} (hwf : op.WF a.appsize)
    (hn : a.flags.has SHR_FARM = true → (hist ++ [op]).length * offered (hist ++ [op]) + 2 * a.max_msgs < W ∧
      (WOp.call op os).leaves pid w ((w.sys.points (w.fill pid os op)).getLast?.getD w.sys.ring)) (hca : w.Callable op) (hat : w.attempt pid op os = some (w1, o, ops))
    (hne : (w.sys.points (w.fill pid os op)).isEmpty = false) (hcons : ((w.sys.points (w.fill pid os op)).getLast?.getD w.sys.ring).Consistent) :
    ADeath a pid hist w (.call op os) ops (w.died pid op os) := by
  refine ⟨?_, fun hf => (hn hf).1, fun hf => (hn hf).2, .call hca hat ?_ hcons (.between _ _)⟩
  · rintro op' os' e; cases e; exact hwf
  · cases e : w.sys.points (w.fill pid os op) with
    | nil => rw [e] at hne; cases hne
    | cons x xs => rw [List.getLast?_eq_some_getLast (by simp)]; exact List.getLast_mem _

/-- **C34 is false if the writer is killed between the commit and `bw_wake`**: its message is in the ring, and the reader sleeps with nothing pending.  (This
state meets the hypotheses of the theorems of C85: the reader belongs to another process.) -/
theorem C85_counterexample_no_wake : ∃ hist w w', JustDied demoA dpid hist w (dcall (wr 0 [[1, 2, 3]])) w' ∧
    dpid 1 ≠ dpid (dcall (wr 0 [[1, 2, 3]])).actor ∧ w.b.Waiting (2 * 1) 0 (dpid 1) ∧
    w'.blk 1 = some (rd 1 5 1, false) ∧ w'.b.pending (2 * 1) = 0 ∧ w'.sys.ring.unreadMsgs = [[1, 2, 3]] := by
  obtain ⟨hist, w, w1, o, ops, h1, h2, h3⟩ := plays_step (st := true) (x := dcall (wr 0 [[1, 2, 3]])) (P := fun w _ _ =>
      !(w.sys.points (w.fill dpid (dos 0) (wr 0 [[1, 2, 3]]))).isEmpty &&
      decide (((w.sys.points (w.fill dpid (dos 0) (wr 0 [[1, 2, 3]]))).getLast?.getD w.sys.ring).Consistent) &&
      decide ((w.died dpid (wr 0 [[1, 2, 3]]) (dos 0)).blk 1 = some (rd 1 5 1, false)) &&
      decide ((w.died dpid (wr 0 [[1, 2, 3]]) (dos 0)).b.pending (2 * 1) = 0) &&
      decide ((w.died dpid (wr 0 [[1, 2, 3]]) (dos 0)).sys.ring.unreadMsgs = [[1, 2, 3]]) &&
      (match w.b.ts (2 * 1) with | some (.wait hi p _) => decide (hi = 0 ∧ p = dpid 1) | _ => false)) (xs := scrRead)
    demoA_wf (by decide) (dsends scrRead (by simp [scrRead])) (dsends [dcall (wr 0 [[1, 2, 3]])] (by simp) _ (by simp))
    (show plays true demoA dpid 4 _ _ = true by decide +kernel)
  simp only [Bool.and_eq_true, decide_eq_true_eq, Bool.not_eq_true'] at h3
  obtain ⟨⟨⟨⟨⟨g1, g2⟩, g3⟩, g4⟩, g5⟩, g6⟩ := h3
  have hst := h2.any.step
  cases hst with
  | call hca hat =>
    refine ⟨hist, w, _, ⟨h1.clean, ops, died_dies (h2.any.wf _ _ rfl) (fun hf => absurd hf (by decide)) hca hat g1 g2, h2.clean⟩, by decide, ?_, g3, g4, g5⟩
    cases e : w.b.ts (2 * 1) with
    | none => rw [e] at g6; cases g6
    | some t =>
      cases t with
      | wake => rw [e] at g6; cases g6
      | wait hi p t =>
        rw [e] at g6
        simp only [decide_eq_true_eq] at g6
        obtain ⟨rfl, rfl⟩ := g6
        exact ⟨t, e⟩

/-- C36, second part, with a death: the selectable reader 1 has drained the ring; reader 2 is killed inside a read. -/
example : ∃ hist w w' ops, CReach demoA dpid hist w ∧ w.b.pending (2 * 1) = 0 ∧ w.sys.ring.unreadMsgs = [] ∧
    CPath demoA dpid (fun w x ops => Quiet 1 w x ∧ (x.isOpen = false → w.b.Succeed (BOp.forces (2 * 1)) ops)) (Quiet 1) hist w (hist ++ [rd 2 5 1]) w' ∧
    ADeath demoA dpid hist w (dcall (rd 2 5 1)) ops w' ∧ (w'.sys.hs 1).isLive = true ∧ (w'.sys.hs 2).isLive = false := by
  obtain ⟨hist, w, w1, o, ops, h1, h2, h3⟩ := plays_step (st := true) (x := dcall (rd 2 5 1)) (P := fun w _ _ =>
      !(w.sys.points (w.fill dpid (dos 2) (rd 2 5 1))).isEmpty &&
      decide (((w.sys.points (w.fill dpid (dos 2) (rd 2 5 1))).getLast?.getD w.sys.ring).Consistent) &&
      decide (w.b.pending (2 * 1) = 0) && decide (w.sys.ring.unreadMsgs = []) &&
      ((w.died dpid (rd 2 5 1) (dos 2)).sys.hs 1).isLive && !((w.died dpid (rd 2 5 1) (dos 2)).sys.hs 2).isLive) (xs := scrSel ++ [dcall (opn 2 SHR_RDONLY), dcall (rd 1 20 5)])
    demoA_wf (by decide) (dsends (scrSel ++ [dcall (opn 2 SHR_RDONLY), dcall (rd 1 20 5)]) (by simp [scrSel])) (dsends [dcall (rd 2 5 1)] (by simp) _ (by simp))
    (show plays true demoA dpid 6 _ _ = true by decide +kernel)
  simp only [Bool.and_eq_true, decide_eq_true_eq, Bool.not_eq_true'] at h3
  obtain ⟨⟨⟨⟨⟨g1, g2⟩, g3⟩, g4⟩, g5⟩, g6⟩ := h3
  have hst := h2.any.step
  cases hst with
  | call hca hat =>
    have hd := died_dies (hist := hist) (os := dos 2) (h2.any.wf _ _ rfl) (fun hf => absurd hf (by decide)) hca hat g1 g2
    have hq : Quiet 1 w (dcall (rd 2 5 1)) := by
      intro op hop
      have : op = rd 2 5 1 := by simpa [WOp.issued, dcall] using hop
      subst this
      refine ⟨rfl, fun hf => ?_⟩
      obtain ⟨sp, hr⟩ := h1.clean.any.state
      rw [hr.inv.rel.ring.gf, hr.inv.gf] at hf
      exact absurd hf (by decide)
    exact ⟨hist, w, _, ops, h1.clean, g3, g4, .dies (.refl _ _) hd h2.clean hq, hd, g5, g6⟩

/-! ## The same on a farm ring -/

/-- Scripts of calls only: the history is the list of the calls. -/
theorem WSys.play_calls {st : Bool} {a : InitArgs} {pid : Nat → Nat} {n : Nat} : ∀ (xs : List Op) (hist : List Op) (w w' : WSys), Good st a pid hist w →
    w.b.Below n → w.play st a pid n (xs.map dcall) hist = some w' → Good st a pid (hist ++ xs) w' ∧ w'.b.Below n
  | [], hist, w, w', h, hb, e => by cases e; exact ⟨by rw [List.append_nil]; exact h, hb⟩
  | x :: xs, hist, w, w', h, hb, e => by
    rw [List.map_cons] at e
    unfold WSys.play at e
    split at e
    · cases e
    · rename_i w1 o hn
      obtain ⟨⟨ops, hws⟩, hb1⟩ := WSys.try_step hb (dsends [dcall x] (by simp) _ (by simp)) hn
      have := WSys.play_calls xs _ w1 w' (h.step hws) hb1 e
      rw [show hist ++ x :: xs = hist ++ (dcall x).issued w ++ xs by rw [List.append_assoc]; rfl]
      exact this

/-- On a farm ring: the reader 1 sleeps, the reader 2 has read a message; then the writer 0 is killed. -/
def killFarm : List Op := [opn 0 SHR_WRONLY, opn 1 SHR_RDONLY, opn 2 SHR_RDONLY, wr 0 [[7]], rd 2 5 1, rd 1 5 1, rd 1 5 1]

/-- A computed death on a farm ring: after the calls `xs`, the caller of `op` is killed inside the call, before any block/wake call, at the `j`-th store to
the ring. -/
def WSys.diedAt (w : WSys) (pid : Nat → Nat) (op : Op) (j : Nat) : WSys :=
  w.corpse pid (pid op.handle) ((w.sys.points (w.fill pid (dos op.handle) op)).getD j w.sys.ring) (w.b.exit (pid op.handle))

theorem farm_died {a : InitArgs} {n : Nat} {xs : List Op} {op : Op} {j : Nat} {P : WSys → WSys → Bool} (ha : a.WF)
    (hn : (xs ++ [op]).length * offered (xs ++ [op]) + 2 * a.max_msgs < W)
    (h : plays true a dpid n (xs.map dcall) (fun w => match w.try true a dpid n xs (dcall op) with
      | some _ => calmB w.sys (w.fill dpid (dos op.handle) op) j && decide ((w.diedAt dpid op j).sys.ring.FarmSound) && P w (w.diedAt dpid op j)
      | none => false) = true) :
    ∃ w, (∀ c S, (∀ y, S y = true → y.isSignal = true) → Announced a dpid c S xs w) ∧ JustDied a dpid xs w (dcall op) (w.diedAt dpid op j) ∧
      P w (w.diedAt dpid op j) = true := by
  unfold plays at h
  split at h
  · rename_i w e
    obtain ⟨hg, hb⟩ := WSys.play_calls xs [] _ w (Good.init ha) (by intro j hi p t e; cases e) e
    rw [List.nil_append] at hg
    dsimp only at h
    split at h
    · rename_i v hv
      obtain ⟨w1, o⟩ := v
      obtain ⟨⟨ops, hst⟩, _⟩ := WSys.try_step hb (dsends [dcall op] (by simp) _ (by simp)) hv
      simp only [Bool.and_eq_true, decide_eq_true_eq] at h
      obtain ⟨⟨c1, c2⟩, c3⟩ := h
      refine ⟨w, hg.ann rfl, ⟨hg.clean, ops, ?_, hst.clean⟩, c3⟩
      have hs := hst.any.step
      have hcalm : CalmAt w.sys (w.fill dpid (dos op.handle) op) j (w.diedAt dpid op j).sys.ring := calmAt_of (d := w.sys.ring) c1
      cases hs with
      | call hca hat =>
        exact ⟨hst.any.wf, fun _ => hn, fun _ => ⟨c2, j, hcalm⟩, .call hca hat (List.mem_of_getElem? hcalm.1) c2.cons (.between _ _)⟩
    · cases h
  · cases h

/-- The writer dies after its messages have been counted, before it wakes anybody: reader 1 sleeps with nothing pending, although there is
something to read for it. -/
example : ∃ w w', JustDied demoF dpid killFarm w (dcall (wr 0 [[1, 2], [3]])) w' ∧ w'.blk 1 = some (rd 1 5 1, false) ∧ w'.b.pending (2 * 1) = 0 ∧
    w'.sys.ring.readableBy (w'.sys.handle 1) = [[1, 2], [3]] ∧ w'.sys.ring.readableBy (w'.sys.handle 2) = [[1, 2], [3]] := by
  obtain ⟨w, _, h1, h2⟩ := farm_died (j := 16) (op := wr 0 [[1, 2], [3]]) (xs := killFarm) (n := 6) (P := fun _ w' => decide (w'.blk 1 = some (rd 1 5 1, false)) &&
      decide (w'.b.pending (2 * 1) = 0) && decide (w'.sys.ring.readableBy (w'.sys.handle 1) = [[1, 2], [3]]) &&
      decide (w'.sys.ring.readableBy (w'.sys.handle 2) = [[1, 2], [3]])) (⟨by decide, by decide, by decide, by decide +kernel⟩ : demoF.WF) (by decide +kernel) (by decide +kernel)
  simp only [Bool.and_eq_true, decide_eq_true_eq] at h2
  exact ⟨w, _, h1, h2.1.1.1, h2.1.1.2, h2.1.2, h2.2⟩

/-- If it dies while copying, nothing is new for the readers, and they are in the state that C34 is about: reader 1 has nothing to read. -/
example : ∃ hist w', Announced demoF dpid 0 (BOp.wakes 0) hist w' ∧ w'.blk 1 = some (rd 1 5 1, false) ∧ w'.b.pending (2 * 1) = 0 ∧
    w'.sys.ring.presentMsgs ≠ [] ∧ (∃ hd, w'.sys.hs 1 = .live hd ∧ w'.sys.ring.readableBy hd = []) := by
  obtain ⟨w, ha, h1, h2⟩ := farm_died (j := 5) (op := wr 0 [[1, 2], [3]]) (xs := killFarm) (n := 6) (P := fun w w' => decide (w'.blk 1 = some (rd 1 5 1, false)) &&
      decide (w'.b.pending (2 * 1) = 0) && (w'.sys.hs 1).isLive && decide (w'.sys.ring.q = w.sys.ring.q) && decide (w'.sys.ring.gflags = w.sys.ring.gflags) &&
      decide (w'.sys.ring.presentMsgs = w.sys.ring.presentMsgs ∧ w'.sys.ring.unreadMsgs = w.sys.ring.unreadMsgs) && decide (w'.sys.ring.presentMsgs ≠ []))
      (⟨by decide, by decide, by decide, by decide +kernel⟩ : demoF.WF) (by decide +kernel) (by decide +kernel)
  simp only [Bool.and_eq_true, decide_eq_true_eq] at h2
  obtain ⟨⟨⟨⟨⟨⟨g1, g2⟩, g3⟩, g4⟩, g5⟩, g6⟩, g7⟩ := h2
  generalize w.diedAt dpid (wr 0 [[1, 2], [3]]) 5 = w' at *
  obtain ⟨ops, hd, hc⟩ := h1.death
  have hn : Announced demoF dpid 0 (BOp.wakes 0) (killFarm ++ (dcall (wr 0 [[1, 2], [3]])).issued w) w' :=
    .dies (ha 0 _ wakes_isSignal) hd hc ⟨fun _ k hd _ h => by unfold Ring.readableBy at h ⊢; rw [g4, g5, g6.1, g6.2] at h; exact h, fun e => by cases e⟩
  exact ⟨_, w', hn, g1, g2, g7, _, live_handle g3, C34_blocked_reader_partial hn (live_handle g3) g1 g2⟩

end Shr
