import Verif.Proof.FarmInv
import Verif.Proof.Demo
import Verif.Props.Read
/-! # Properties of whole histories: C01, C13, C14, C17, C18, C26 -/
namespace Shr

section
variable {a : InitArgs} {ops : List Op} {s : Sys} {outs : List Out}

/-- **C18.** No history of well-formed calls makes the library touch memory out of bounds, fail an
assertion or loop forever, on any ring created without overflow. -/
theorem C18_no_fault (v : Valid a ops) : ∃ s outs, (Sys.init a).run ops = .ok (s, outs) := by
  obtain ⟨s, e, _⟩ := v.reach
  exact ⟨s, _, e⟩

/-- **C01.** Ring without SHR_DROP and SHR_FARM, no buffered writers, wake-ups and msync succeed: the
messages delivered by all reads, followed by the unread ones, are exactly the messages of the
successful writes, in order. -/
theorem C01_fifo_exactly_once (v : Valid a ops) (hd : a.flags.has SHR_DROP = false)
    (hf : a.flags.has SHR_FARM = false) (hu : Unbuffered ops) (hg : ∀ op ∈ ops, op.good)
    (hrun : (Sys.init a).run ops = .ok (s, outs)) :
    delivered outs ++ s.ring.unreadMsgs = accepted ops outs := by
  obtain ⟨X, hX⟩ := hist_cons hf v hrun
  obtain ⟨sp, x, hsp, _⟩ := v.state hrun
  have h1 := hist_accepted_all v hu hg hrun
  have hdr : (specAfter a ops).drop = false := by
    have := x.drop; rw [hsp] at this; rw [this, hd, hf]; rfl
  have h2 := hX.nodrop hdr
  rw [← h1, ← hX.log, ← hX.got, x.rel.ring.unreadMsgs, hsp]
  congr 1
  have : ∀ X : List (Msg × Bool), lostIn X = [] → kept X = X.map Prod.fst := by
    intro X
    induction X with
    | nil => intro; rfl
    | cons e es ih =>
      obtain ⟨m, b⟩ := e
      cases b
      · intro h; simp [lostIn] at h
      · intro h; simp [lostIn, kept] at h ih ⊢; exact ih h
  exact this X h2

/-- **C01**, whatever fails: each write that returned a positive count contributed exactly its messages, each
other call nothing, except that a write that returned -1 (wake-up or msync failed after the commit) may have
contributed all of its messages. -/
theorem C01_fifo_any_failures (v : Valid a ops) (hd : a.flags.has SHR_DROP = false)
    (hf : a.flags.has SHR_FARM = false) (hu : Unbuffered ops)
    (hrun : (Sys.init a).run ops = .ok (s, outs)) :
    Entered ops outs (delivered outs ++ s.ring.unreadMsgs) := by
  obtain ⟨X, hX⟩ := hist_cons hf v hrun
  obtain ⟨sp, x, hsp, _⟩ := v.state hrun
  have h1 := hist_entered v hu hrun
  have hdr : (specAfter a ops).drop = false := by
    have := x.drop; rw [hsp] at this; rw [this, hd, hf]; rfl
  have h2 := hX.nodrop hdr
  rw [← hX.got, x.rel.ring.unreadMsgs, hsp]
  have : ∀ X : List (Msg × Bool), lostIn X = [] → kept X = X.map Prod.fst := by
    intro X
    induction X with
    | nil => intro; rfl
    | cons e es ih =>
      obtain ⟨m, b⟩ := e
      cases b
      · intro h; simp [lostIn] at h
      · intro h; simp [lostIn, kept] at h ih ⊢; exact ih h
  rw [this X h2, hX.log]
  exact h1

/-- **C13.** Ring with SHR_DROP (without SHR_FARM), no buffered writers: the messages put into the ring
are, in order, those delivered and those dropped, interleaved, and then those unread.  The number and bytes of the
dropped ones are what `shr_stat` counts (current counters plus what was reported at each reset). -/
theorem C13_delivered_or_counted (v : Valid a ops) (hf : a.flags.has SHR_FARM = false) (hu : Unbuffered ops)
    (hrun : (Sys.init a).run ops = .ok (s, outs)) :
    ∃ X : List (Msg × Bool), Entered ops outs (X.map Prod.fst ++ s.ring.unreadMsgs) ∧
      kept X = delivered outs ∧
      (lostIn X).length % W = (reported Stat.md ops outs + s.ring.stat.md) % W ∧
      bytesOf (lostIn X) % W = (reported Stat.bd ops outs + s.ring.stat.bd) % W := by
  obtain ⟨X, hX⟩ := hist_cons hf v hrun
  obtain ⟨sp, x, hsp, _⟩ := v.state hrun
  have h1 := hist_entered v hu hrun
  have h2 := hX.md; have h3 := hX.bd
  have hst := x.rel.ring.stat
  refine ⟨X, ?_, hX.got, ?_, ?_⟩
  · rw [x.rel.ring.unreadMsgs, hsp, hX.log]; exact h1
  · rw [hst, hsp, ← h2]
    show _ = (_ + (specAfter a ops).st.md % W) % W
    simp
  · rw [hst, hsp, ← h3]
    show _ = (_ + (specAfter a ops).st.bd % W) % W
    simp

theorem kept_sublist (X : List (Msg × Bool)) : (kept X).Sublist (X.map Prod.fst) := by
  unfold kept
  exact List.Sublist.map _ List.filter_sublist

/-- **C13**, corollary: what is delivered is an ordered subsequence of what was accepted. -/
theorem C13_subsequence (v : Valid a ops) (hf : a.flags.has SHR_FARM = false) (hu : Unbuffered ops)
    (hg : ∀ op ∈ ops, op.good) (hrun : (Sys.init a).run ops = .ok (s, outs)) :
    (delivered outs ++ s.ring.unreadMsgs).Sublist (accepted ops outs) := by
  obtain ⟨X, hX⟩ := hist_cons hf v hrun
  obtain ⟨sp, x, hsp, _⟩ := v.state hrun
  rw [← hist_accepted_all v hu hg hrun, ← hX.log, ← hX.got, x.rel.ring.unreadMsgs, hsp]
  exact (kept_sublist X).append (List.Sublist.refl _)

/-- **C26.** Buffered writers (any mixture with unbuffered ones, on any ring), wake-ups and msync succeed: there is
one sequence `T` of messages, tagged with their writers, that entered the ring.  For each writer, what it put into the ring
followed by what it has cached is exactly what its successful writes accepted (for a closed handle: up to messages
discarded at close).  On a consuming ring the sequence is delivered (or, on a SHR_DROP ring, dropped) in order; on a farm
ring the stored messages are its newest part. -/
theorem C26_order_preserved (v : Valid a ops) (hg : ∀ op ∈ ops, op.good)
    (hrun : (Sys.init a).run ops = .ok (s, outs)) :
    ∃ T : List (Nat × Msg),
      (∀ k, ∃ disc, byHandle k T ++ s.cached k ++ disc = acceptedFrom k ops outs ∧
        ((∀ b, s.hs k ≠ .gone b) → disc = [])) ∧
      (a.flags.has SHR_FARM = false → ∃ X : List (Msg × Bool), X.map Prod.fst ++ s.ring.unreadMsgs = T.map Prod.snd ∧
        kept X = delivered outs ∧ (a.flags.has SHR_DROP = false → lostIn X = [])) ∧
      (∃ n, s.ring.presentMsgs = (T.map Prod.snd).drop n) := by
  obtain ⟨sp, x, hsp, _⟩ := v.state hrun
  refine ⟨sp.tlog, ?_, ?_, ?_⟩
  · intro k
    have h1 := hist_accepted v hg hrun k
    unfold specAfter at h1
    rw [← hsp] at h1
    have hl := x.rel.hs k
    unfold Sys.cached
    cases e : s.hs k with
    | never =>
      rw [e] at hl
      cases e2 : sp.hs k with
      | never => rw [e2] at h1; exact ⟨[], by simpa [pendOf] using h1, fun _ => rfl⟩
      | live _ => rw [e2] at hl; exact hl.elim
      | gone _ => rw [e2] at hl; exact hl.elim
    | live hd =>
      rw [e] at hl
      cases e2 : sp.hs k with
      | live sh =>
        rw [e2] at h1 hl
        refine ⟨[], ?_, fun _ => rfl⟩
        have := HRel.cache hl
        dsimp only
        rw [this.msgs, List.append_nil]; exact h1
      | never => rw [e2] at hl; exact hl.elim
      | gone _ => rw [e2] at hl; exact hl.elim
    | gone _ =>
      refine ⟨pendOf (sp.hs k), by simpa using h1, fun h => absurd rfl (h _)⟩
  · intro hf
    obtain ⟨X, hX⟩ := hist_cons hf v hrun
    refine ⟨X, ?_, hX.got, ?_⟩
    · rw [x.rel.ring.unreadMsgs, hsp, hX.log]; rfl
    · intro hd
      apply hX.nodrop
      have := x.drop; rw [hsp] at this; rw [this, hd, hf]; rfl
  · exact ⟨sp.base, by rw [x.rel.ring.presentMsgs]; rfl⟩
end

section
variable {a : InitArgs} {pre ops : List Op} {s0 s1 s : Sys} {outs0 outs : List Out} {k : Nat} {flags : Flags} {env : Env}
  {hd : Handle}

/-- **C14.** A reader `k` opened on a SHR_FARM ring (state `s0`), after any further calls `ops`: the messages present when
it was opened followed by those put into the ring since (`later`) are, position by position, the messages it was delivered
interleaved with the messages it missed (`X`), then messages overwritten that it has not noticed yet (`over`), then those it will
read next.  The missed ones are what `shr_farm_stat` counts (now, plus at each reset). -/
theorem C14_farm_reader_sees_all_or_counts
    (hf : a.flags.has SHR_FARM = true) (v : Valid a (pre ++ [.open k flags env] ++ ops))
    (hrun : (Sys.init a).run pre = .ok (s0, outs0))
    (hopen : s0.step (.open k flags env) = .ok (s1, .opened true))
    (hcont : s1.run ops = .ok (s, outs)) (hk : s.hs k = .live hd) :
    ∃ (later over : List Msg) (X : List (Msg × Bool)),
      s0.ring.presentMsgs ++ later = X.map Prod.fst ++ over ++ s.ring.readableBy hd ∧
      kept X = deliveredTo k ops outs ∧
      (lostIn X).length % W = (missedReported k ops outs + hd.cur.md) % W ∧
      (over ≠ [] → s.ring.readableBy hd = s.ring.presentMsgs) ∧
      (Unbuffered (pre ++ [.open k flags env] ++ ops) → Entered ops outs later ∧
        ((∀ op ∈ ops, op.good) → later = accepted ops outs)) := by
  obtain ⟨sp0, x0⟩ := v.left.at hrun hopen
  have hsp0 : (specAfter a pre) = ((Spec.init a).run pre).1 := rfl
  have hrun1 : (Sys.init a).run (pre ++ [.open k flags env]) = .ok (s1, outs0 ++ [.opened true]) := by
    rw [sys_run_append, hrun]; dsimp only [Sys.run]; rw [hopen]
  obtain ⟨spa, xa, ea, _⟩ := v.left.left.state hrun
  obtain ⟨spb, xb, eb, eo⟩ := v.left.state hrun1
  have hall : (Sys.init a).run (pre ++ [.open k flags env] ++ ops) = .ok (s, outs0 ++ [.opened true] ++ outs) := by
    rw [sys_run_append, hrun1]; dsimp only; rw [hcont]
  obtain ⟨spc, xc, ec, _⟩ := v.state hall
  -- the open
  obtain ⟨spx, r1, r2, eo2, w, hspx⟩ := v.left.last hrun hopen
  have hstep : specAfter a (pre ++ [.open k flags env]) = (spx.step (.open k flags env)).1 := by
    rw [specAfter_snoc, hspx]
  have hop : ∃ sh0, (specAfter a (pre ++ [.open k flags env])).hs k = .live sh0 ∧ sh0.pos = spx.base ∧ sh0.missed = 0 ∧
      (specAfter a (pre ++ [.open k flags env])).log = spx.log := by
    rw [hstep]
    unfold Spec.step at eo2 ⊢
    dsimp only at eo2 ⊢
    split at eo2
    · split at eo2
      · cases eo2
      · rename_i h1
        rw [if_neg h1]
        split at eo2
        · cases eo2
        · rename_i sh0 heq
          refine ⟨sh0, upd_same _ _ _, ?_, ?_, rfl⟩
          all_goals
            unfold Spec.openH at heq
            dsimp only at heq
            split at heq
            · cases heq
            · cases heq; rfl
    · cases eo2
  obtain ⟨sh0, h1, h2, h3, h4⟩ := hop
  obtain ⟨sh, hsk, hh⟩ := xc.rel.live hk
  rw [ec] at hsk
  have hle0 : spx.base ≤ spx.log.length := Nat.le_trans r1.ring.ble r1.ring.fle
  obtain ⟨X, hX⟩ := hist_farm hf hrun1 h1 h2 h3 (by rw [h4]; exact hle0) v hcont hsk
  obtain ⟨later, hlater⟩ := hist_log_from hrun1 v hcont
  have hfarm : (specAfter a (pre ++ [.open k flags env] ++ ops)).farm = true := by
    have := xc.farm; rw [ec] at this; rw [this]; exact hf
  have hrb : s.ring.readableBy hd = (specAfter a (pre ++ [.open k flags env] ++ ops)).readable sh := by
    rw [readableBy_eq xc.rel.ring hh, ec]
  have hpres : s.ring.presentMsgs = (specAfter a (pre ++ [.open k flags env] ++ ops)).retained := by
    rw [xc.rel.ring.presentMsgs, ec]
  have hmd := hh.cur.md
  have hrb2 : s.ring.readableBy hd = (specAfter a (pre ++ [.open k flags env] ++ ops)).log.drop
      (max sh.pos (specAfter a (pre ++ [.open k flags env] ++ ops)).base) := by
    rw [hrb]; simp only [Spec.readable, hfarm, if_true]
  generalize hL : specAfter a (pre ++ [.open k flags env] ++ ops) = spf at *
  have hpos := hX.ge
  refine ⟨later, (spf.log.drop sh.pos).take (spf.base - sh.pos), X, ?_, hX.got, ?_, ?_, ?_⟩
  · rw [r1.ring.presentMsgs, ← hX.log, hrb2]
    unfold Spec.retained
    have e1 : spx.log.drop spx.base ++ later = spf.log.drop spx.base := by
      rw [hlater, h4, List.drop_append_of_le_length hle0]
    rw [e1]
    have e2 : spf.log.drop (max sh.pos spf.base) = (spf.log.drop sh.pos).drop (spf.base - sh.pos) := by
      rw [List.drop_drop]; congr 1; omega
    rw [e2, List.append_assoc, List.take_append_drop]
    have e3 : spf.log.drop sh.pos = (spf.log.drop spx.base).drop (sh.pos - spx.base) := by
      rw [List.drop_drop]; congr 1; omega
    rw [e3, List.take_append_drop]
  · rw [← hX.md, hmd]; simp
  · intro hne
    rw [hrb2, hpres]
    unfold Spec.retained
    congr 1
    by_cases hc : sh.pos < spf.base
    · omega
    · rw [show spf.base - sh.pos = 0 by omega] at hne; simp at hne
  · intro hu
    obtain ⟨new, e1, e2, e3⟩ := hist_entered_from hrun1 v hu hcont
    rw [hL, hlater] at e1
    have := List.append_cancel_left e1
    rw [this]
    exact ⟨e2, e3⟩

/-- **C17.** What is missing: a write whose wake-up fails is not counted although its messages are in the ring
(`C17_counterexample`).  Consuming ring, any stretch `ops` of a history without a reset, wake-ups and msync succeed: messages
written plus messages unread before = messages read plus dropped plus unread after (modulo 2^64), and the same for bytes. -/
theorem C17_conservation_partial
    (hf : a.flags.has SHR_FARM = false) (v : Valid a (pre ++ ops)) (hg : ∀ op ∈ ops, op.good)
    (hns : ∀ op ∈ ops, ∀ k t env, op ≠ .stat k (some t) env)
    (hrun : (Sys.init a).run pre = .ok (s0, outs0)) (hcont : s0.run ops = .ok (s, outs)) :
    (s.ring.stat.mw + s0.ring.stat.mr + s0.ring.stat.md + s0.ring.unreadMsgs.length) % W =
      (s0.ring.stat.mw + s.ring.stat.mr + s.ring.stat.md + s.ring.unreadMsgs.length) % W ∧
    (s.ring.stat.bw + s0.ring.stat.br + s0.ring.stat.bd + bytesOf s0.ring.unreadMsgs) % W =
      (s0.ring.stat.bw + s.ring.stat.br + s.ring.stat.bd + bytesOf s.ring.unreadMsgs) % W := by
  have hall : (Sys.init a).run (pre ++ ops) = .ok (s, outs0 ++ outs) := by
    rw [sys_run_append, hrun]; dsimp only; rw [hcont]
  obtain ⟨sp0, x0, e0, _⟩ := v.left.state hrun
  obtain ⟨sp1, x1, e1, _⟩ := v.state hall
  have hb := hist_balance hf hrun v hg hns hcont
  rw [x0.rel.ring.stat, x1.rel.ring.stat, x0.rel.ring.unreadMsgs, x1.rel.ring.unreadMsgs]
  have b1 := hb.m; have b2 := hb.b
  unfold specAfter at b1 b2
  rw [← e0, ← e1] at b1 b2
  simp only [SStat.toStat]
  unfold W
  constructor <;> omega

/-- **C17.** A reset reports the counters, sets them to zero and changes nothing else in the ring. -/
theorem C17_reset {t : Timeval} {rc : Int} {st : Stat}
    (hstep : s.step (.stat k (some t) env) = .ok (s1, .stat rc (some st))) :
    s1.ring = { s.ring with stat := { start := t } } ∧ s1.hs = s.hs ∧
    st.mw = s.ring.stat.mw ∧ st.mr = s.ring.stat.mr ∧ st.md = s.ring.stat.md ∧
    st.bw = s.ring.stat.bw ∧ st.br = s.ring.stat.br ∧ st.bd = s.ring.stat.bd ∧ st.start = s.ring.stat.start := by
  unfold Sys.step at hstep
  dsimp only at hstep
  split at hstep
  · unfold exec shr_stat at hstep
    by_cases hl : env.lockOk = false
    · simp [hl] at hstep
    · by_cases hc : s.ring.gflags.has SHR_SYNC = true ∧ env.syncOk = false
      · simp [hl, hc] at hstep
        obtain ⟨rfl, rfl, rfl⟩ := hstep
        simp
      · simp [hl, hc] at hstep
        obtain ⟨rfl, rfl, rfl⟩ := hstep
        simp
  · cases hstep

/-- **C17.** What is missing: as above.  A statistics period, from the reset on: written + unread at the reset = read + dropped + unread now. -/
theorem C17_period_partial {t : Timeval} {rc : Int} {st : Stat}
    (hf : a.flags.has SHR_FARM = false) (v : Valid a (pre ++ [.stat k (some t) env] ++ ops))
    (hg : ∀ op ∈ ops, op.good) (hns : ∀ op ∈ ops, ∀ k t env, op ≠ .stat k (some t) env)
    (hrun : (Sys.init a).run pre = .ok (s0, outs0))
    (hreset : s0.step (.stat k (some t) env) = .ok (s1, .stat rc (some st)))
    (hcont : s1.run ops = .ok (s, outs)) :
    (s.ring.stat.mw + s0.ring.unreadMsgs.length) % W =
      (s.ring.stat.mr + s.ring.stat.md + s.ring.unreadMsgs.length) % W ∧
    (s.ring.stat.bw + bytesOf s0.ring.unreadMsgs) % W =
      (s.ring.stat.br + s.ring.stat.bd + bytesOf s.ring.unreadMsgs) % W := by
  have hrun1 : (Sys.init a).run (pre ++ [.stat k (some t) env]) = .ok (s1, outs0 ++ [.stat rc (some st)]) := by
    rw [sys_run_append, hrun]; dsimp only [Sys.run]; rw [hreset]
  have h := C17_conservation_partial hf v hg hns hrun1 hcont
  have h2 := (C17_reset hreset).1
  have h3 : s1.ring.unreadMsgs = s0.ring.unreadMsgs := by rw [h2]; rfl
  have h4 : s1.ring.stat = { start := t } := by rw [h2]
  rw [h3, h4] at h
  simpa using h
end


/-! ## The hypotheses can be met -/

theorem demoOps_unbuffered : Unbuffered demoOps := by
  intro op ho k flags env e
  subst e
  simp [demoOps, opn, wr, rd] at ho
  rcases ho with ⟨_, rfl, _⟩ | ⟨_, rfl, _⟩ <;> decide

theorem demoOps_good : ∀ op ∈ demoOps, op.good := by
  intro op ho
  simp [demoOps, opn, wr, rd] at ho
  rcases ho with rfl | rfl | rfl | rfl | rfl <;> simp [Op.good, Env.good]

/-- **C18, C23.** `Op.WF` excludes opening with SHR_RDONLY|SHR_WRONLY, which `shr_open` accepts: such a
handle has only a wake-mode `s->w2r`, so that its first read kills the process with a failed assertion
(lib/bw.c:713), while it holds the lock; with a message in the ring, after the message was consumed. -/
theorem C18_counterexample_both_modes :
    (match (Sys.init demoA).run [opn 0 (SHR_RDONLY ||| SHR_WRONLY)] with
      | .ok (_, outs) => decide (outs = [.opened true]) | _ => false) = true ∧
    (match (Sys.init demoA).run [opn 0 (SHR_RDONLY ||| SHR_WRONLY), rd 0 10 1] with
      | .error .abort => true | _ => false) = true ∧
    (match (Sys.init demoA).run [opn 0 (SHR_RDONLY ||| SHR_WRONLY), wr 0 [[1]], rd 0 10 1] with
      | .error .abort => true | _ => false) = true := by
  refine ⟨by decide +kernel, by decide +kernel, by decide +kernel⟩

/-- **C17.** The wake-up of the first write fails: the counters say that nothing was written and one message was read. -/
theorem C17_counterexample : ∃ (a : InitArgs) (ops : List Op), Valid a ops ∧
    ∃ s outs, (Sys.init a).run ops = .ok (s, outs) ∧ s.ring.stat.mw = 0 ∧ s.ring.stat.mr = 1 ∧ s.ring.stat.md = 0 ∧
      s.ring.unreadMsgs = [] := by
  have v : Valid demoA [opn 0 SHR_WRONLY, opn 1 SHR_RDONLY, .writev 0 [[1, 2]] {} { wakeOk := false }, rd 1 10 1] :=
    valid_of (by decide +kernel)
  exact ⟨demoA, _, v, _, _, v.runs, by decide +kernel, by decide +kernel, by decide +kernel, by decide +kernel⟩

/-- C18, C01: one message delivered, two unread, one of them straddling the end. -/
example : delivered (outsOf demoA demoOps) ++ (final demoA demoOps).ring.unreadMsgs =
    [[1, 2, 3], [4, 5, 6, 7], [8, 9, 10, 11]] := by
  have v : Valid demoA demoOps := valid_of (by decide +kernel)
  rw [C01_fifo_exactly_once v (by decide) (by decide) demoOps_unbuffered demoOps_good v.runs]
  decide +kernel

/-- C13: a drop happens (ring with SHR_DROP; the last write needs space). -/
example : ∃ X : List (Msg × Bool), kept X = [[1, 2, 3]] ∧ (lostIn X).length % W = 1 := by
  have v : Valid demoD (demoOps ++ [wr 0 [[7, 7, 7]]]) := valid_of (by decide +kernel)
  have hu : Unbuffered (demoOps ++ [wr 0 [[7, 7, 7]]]) := by
    intro op ho
    rcases List.mem_append.mp ho with h | h
    · exact demoOps_unbuffered op h
    · simp [wr] at h; subst h; intro k f e h; cases h
  obtain ⟨X, _, h1, h2, _⟩ := C13_delivered_or_counted v (by decide) hu v.runs
  refine ⟨X, h1.trans (by decide +kernel), h2.trans (by decide +kernel)⟩

/-- C17: the balance of the stretch after the first three calls. -/
example : (final demoA demoOps).ring.stat.mw = 3 ∧ (final demoA demoOps).ring.stat.mr = 1 ∧
    (final demoA demoOps).ring.unreadMsgs.length = 2 := by decide +kernel

example : Valid demoD ([opn 0 (SHR_WRONLY), wr 0 [[1, 2]]] ++ [.stat 0 (some (5, 6)) {}] ++ [wr 0 [[3, 4, 5]]]) ∧
    lastOut demoD ([opn 0 (SHR_WRONLY), wr 0 [[1, 2]]] ++ [.stat 0 (some (5, 6)) {}]) =
      .stat 0 (some { mw := 1, bw := 2, bn := 10, bu := 2, mu := 1, mm := 3, flags := SHR_DROP }) :=
  ⟨valid_of (by decide +kernel), by decide +kernel⟩

/-- C14: reader 1 is opened when a message is present; it reads it, is overtaken by two writes, and reads again: it missed one
message. -/
def farmPre : List Op := [opn 0 SHR_WRONLY, wr 0 [[1, 2, 3]]]
def farmHist : List Op := [rd 1 8 1, wr 0 [[5, 5, 5, 5]], wr 0 [[6, 6, 6, 6]], wr 0 [[7, 7, 7, 7]], rd 1 4 1]

example : ∃ (later over : List Msg) (X : List (Msg × Bool)),
    [[1, 2, 3]] ++ later = X.map Prod.fst ++ over ++ [[7, 7, 7, 7]] ∧
    kept X = [[1, 2, 3], [6, 6, 6, 6]] ∧ (lostIn X).length % W = 1 := by
  have v : Valid demoF (farmPre ++ [.open 1 (SHR_RDONLY ||| SHR_NONBLOCK) {}] ++ farmHist) :=
    valid_of (by decide +kernel)
  have hstep := v.left.steps
  have hout : lastOut demoF (farmPre ++ [.open 1 (SHR_RDONLY ||| SHR_NONBLOCK) {}]) = .opened true := by
    decide +kernel
  rw [hout] at hstep
  obtain ⟨later, over, X, h1, h2, h3, _⟩ := C14_farm_reader_sees_all_or_counts (by decide) v v.left.left.runs hstep v.cont
    (live_handle (by decide +kernel))
  have p0 : (final demoF farmPre).ring.presentMsgs = [[1, 2, 3]] := by decide +kernel
  have p1 : (final demoF (farmPre ++ [.open 1 (SHR_RDONLY ||| SHR_NONBLOCK) {}] ++ farmHist)).ring.readableBy
    ((final demoF (farmPre ++ [.open 1 (SHR_RDONLY ||| SHR_NONBLOCK) {}] ++ farmHist)).handle 1) = [[7, 7, 7, 7]] := by decide +kernel
  rw [p0, p1] at h1
  exact ⟨later, over, X, h1, h2.trans (by decide +kernel), h3.trans (by decide +kernel)⟩

/-- C26: a buffered writer 0 and an unbuffered writer 1; the cache (10 bytes) overflows at the third write. -/
def bufHist : List Op := [opn 0 (SHR_WRONLY ||| SHR_BUFFERED), opn 1 SHR_WRONLY, opn 2 SHR_RDONLY,
  wr 0 [[1, 1, 1, 1]], wr 1 [[9, 9]], wr 0 [[2, 2, 2, 2]], wr 0 [[3, 3, 3]], rd 2 10 1]

theorem bufHist_good : ∀ op ∈ bufHist, op.good := by
  intro op ho
  simp [bufHist, opn, wr, rd] at ho
  rcases ho with rfl | rfl | rfl | rfl | rfl | rfl | rfl | rfl <;> simp [Op.good, Env.good]

example : (final demoA bufHist).cached 0 = [[3, 3, 3]] ∧
    (final demoA bufHist).ring.unreadMsgs = [[1, 1, 1, 1], [2, 2, 2, 2]] ∧
    ∃ T : List (Nat × Msg), byHandle 0 T ++ [[3, 3, 3]] = [[1, 1, 1, 1], [2, 2, 2, 2], [3, 3, 3]] ∧ byHandle 1 T = [[9, 9]] := by
  refine ⟨by decide +kernel, by decide +kernel, ?_⟩
  have v : Valid demoA bufHist := valid_of (by decide +kernel)
  obtain ⟨T, h1, _⟩ := C26_order_preserved v bufHist_good v.runs
  obtain ⟨d0, e0, f0⟩ := h1 0
  obtain ⟨d1, e1, f1⟩ := h1 1
  have g0 := f0 (fun b => by rw [live_handle (by decide +kernel)]; simp)
  have g1 := f1 (fun b => by rw [live_handle (by decide +kernel)]; simp)
  rw [g0, List.append_nil] at e0
  rw [g1, List.append_nil] at e1
  refine ⟨T, ?_, ?_⟩
  · have : (final demoA bufHist).cached 0 = [[3, 3, 3]] := by decide +kernel
    rw [this] at e0
    exact e0.trans (by decide +kernel)
  · have : (final demoA bufHist).cached 1 = [] := by decide +kernel
    rw [this, List.append_nil] at e1
    exact e1.trans (by decide +kernel)

end Shr
