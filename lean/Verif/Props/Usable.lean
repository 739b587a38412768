import Verif.Proof.Settled
import Verif.Props.Crash
/-!
# C33: which rings survive a death inside a call

C33 is false as stated (`C33_counterexample_writer`, `C33_counterexample_reader`).  Here: what does hold.  The
control block left behind is either consistent (`Ring.Consistent`, `Spec/Consistent.lean`, a decidable condition on
the file alone), and then the death is harmless; or it is torn between two stores that belong together.
-/
namespace Shr

/-- A system reached from a new ring by calls and by deaths inside calls, any number of each, where
every death left a consistent control block. -/
inductive Survivor (a : InitArgs) : Sys → Prop where
  | new : Survivor a (Sys.init a)
  | call {s s' : Sys} {op : Op} {o : Out} : Survivor a s → op.WF a.appsize → s.step op = .ok (s', o) → Survivor a s'
  | death {s : Sys} {op : Op} {p : Ring} : Survivor a s → op.WF a.appsize → p ∈ s.points op → p.Consistent → Survivor a (s.killed op p)

section
variable {a : InitArgs} {ops : List Op} {op : Op} {s s' : Sys} {outs : List Out} {p : Ring}

theorem Survivor.rel (hi : a.WF) (hnf : a.flags.has SHR_FARM = false) (h : Survivor a s) :
    ∃ sp, AtState a s sp ∧ sp.app.length = a.appsize := by
  induction h with
  | new =>
    have v : Valid a [] := ⟨hi, (fun _ h => nomatch h), (fun e => by rw [hnf] at e; cases e)⟩
    obtain ⟨sp, x, e, _⟩ := v.state rfl
    exact ⟨sp, x, by rw [e]; simp only [Spec.run, Spec.init, InitArgs.appsize]; split <;> rfl⟩
  | call _ hw hs ih =>
    obtain ⟨sp, x, ha⟩ := ih
    obtain ⟨s1, e1, r1⟩ := step_refine x.rel _ (by rw [ha]; exact hw) (fun e => by rw [x.farm, hnf] at e; cases e)
    rw [hs] at e1; cases e1
    have hle := step_le sp ‹Op›
    exact ⟨_, ⟨r1, by rw [hle.cap, x.cap], by rw [hle.maxm, x.maxm], by rw [hle.gf, x.gf]⟩,
      by rw [step_app_length _ (by rw [ha]; exact hw), ha]⟩
  | death _ hw hp hc ih =>
    obtain ⟨sp, x, ha⟩ := ih
    obtain ⟨sp', h1, _, h3, h4, h5, h6⟩ := killed_rel x.rel (by rw [x.farm]; exact hnf) (by rw [ha]; exact hw) hp hc
    exact ⟨sp', ⟨h1, by rw [h3, x.cap], by rw [h4, x.maxm], by rw [h5, x.gf]⟩, by rw [h6, ha]⟩

/-- **C33, deaths that leave the control block consistent.**  However many processes have died inside calls
on a ring (not a farm), if each left a consistent control block then all further calls complete without fault and
return exactly what the queue machine of `Spec/Machine.lean` returns from a state with the ring's sizes,
mode and app data whose queue holds the messages now unread in the ring; the control block stays
consistent.  (Missing from C33: the deaths that leave it inconsistent.) -/
theorem C33_survivors_partial (hi : a.WF) (hnf : a.flags.has SHR_FARM = false) (h : Survivor a s) (more : List Op)
    (hwf : ∀ op ∈ more, op.WF a.appsize) :
    s.ring.Consistent ∧
    ∃ sp : Spec, sp.cap = a.dataSz ∧ sp.maxm = a.max_msgs ∧ sp.gflags = a.gflags ∧ sp.unread = s.ring.unreadMsgs ∧ sp.app = s.ring.app ∧
    ∃ s', s.run more = .ok (s', (sp.run more).2) ∧ s'.ring.Consistent ∧ s'.ring.unreadMsgs = (sp.run more).1.unread ∧
      s'.ring.app = (sp.run more).1.app := by
  obtain ⟨sp, x, ha⟩ := h.rel hi hnf
  obtain ⟨s', e, r⟩ := run_refine more x.rel (by rw [ha]; exact hwf) (fun e => by rw [x.farm, hnf] at e; cases e)
  exact ⟨x.rel.ring.consistent, sp, x.cap, x.maxm, x.gf, x.rel.ring.unreadMsgs.symm, x.rel.ring.app.symm, s', e, r.ring.consistent,
    r.ring.unreadMsgs, r.ring.app⟩

/-- **C33, the same for messages.**  Whatever consistent deaths a ring (not a farm) has seen, reads by anybody
deliver exactly the messages that are unread, in order, each once. -/
theorem C33_survivors_deliver_partial (hi : a.WF) (hnf : a.flags.has SHR_FARM = false) (h : Survivor a s) (reads : List Op)
    (hr : ReadsOnly reads) :
    ∃ s' outs, s.run reads = .ok (s', outs) ∧ delivered outs ++ s'.ring.unreadMsgs = s.ring.unreadMsgs := by
  obtain ⟨sp, x, ha⟩ := h.rel hi hnf
  rw [x.rel.ring.unreadMsgs]
  exact reads_deliver reads (by rw [x.rel.ring.gf]; exact x.farm.trans hnf) x.rel.noBoth x.rel.ring.cview hr

/-- **C33, deaths that leave the control block consistent.**  Compare a system in which the caller of `op`
died with any other survivor (for example one in which nobody ever died) that has the same other
handles, sizes, mode, app data and unread messages.  Any calls on the other handles return the same in both, except
for the counters that `shr_stat` reports (and these too if they are equal at first), and leave the
same unread messages and app data.  (Missing from C33: the deaths that leave it inconsistent.) -/
theorem C33_indistinguishable_partial (hi : a.WF) (hnf : a.flags.has SHR_FARM = false) (h : Survivor a s) (hw : op.WF a.appsize)
    (hp : p ∈ s.points op) (hc : p.Consistent) {t : Sys} (ht : Survivor a t) (hhs : ∀ j, j ≠ op.handle → t.hs j = s.hs j)
    (ha : t.ring.app = p.app) (hu : t.ring.unreadMsgs = p.unreadMsgs) (more : List Op)
    (hwf : ∀ q ∈ more, q.WF a.appsize) (hne : ∀ q ∈ more, q.handle ≠ op.handle) :
    ∃ s2 t2 o1 o2, (s.killed op p).run more = .ok (s2, o1) ∧ t.run more = .ok (t2, o2) ∧
      o1.map Out.noCounters = o2.map Out.noCounters ∧ (p.stat = t.ring.stat → o1 = o2) ∧
      s2.ring.unreadMsgs = t2.ring.unreadMsgs ∧ s2.ring.app = t2.ring.app := by
  obtain ⟨sp, x, hl⟩ := (Survivor.death h hw hp hc).rel hi hnf
  obtain ⟨sq, y, hl'⟩ := ht.rel hi hnf
  obtain ⟨s2, t2, o1, o2, g1, g2, g3, g4, g5, g6⟩ := same_use x.rel y.rel (x.farm.trans hnf) (c := op.handle)
    (fun k hk => by rw [hhs k hk]; show upd s.hs op.handle _ k = _; unfold upd; rw [if_neg hk])
    (by rw [x.rel.ring.n, y.rel.ring.n, x.cap, y.cap]) (by rw [x.rel.ring.mm, y.rel.ring.mm, x.maxm, y.maxm])
    (by rw [x.rel.ring.gf, y.rel.ring.gf, x.gf, y.gf]) ha.symm hu.symm more (by rw [x.rel.ring.app, hl]; exact hwf) hne
  exact ⟨s2, t2, o1, o2, g1, g2, g3, g6, g4, g5⟩

/-- No call but `shr_appdata` changes the app data, at no point inside the call. -/
theorem points_app (hop : ∀ k g t n e, op ≠ .appdata k g t n e) (hp : p ∈ s.points op) : p.app = s.ring.app := by
  cases op with
  | «open» k f e => rw [List.mem_singleton.mp hp]
  | writev k iov e1 e2 =>
    unfold Sys.points at hp; dsimp only at hp
    split at hp
    · split at hp
      · rw [List.mem_singleton.mp hp]
      · exact (shr_writev_app (R := SameApp) _ _ _ _).points hp
    · rw [List.mem_singleton.mp hp]
  | readv k buf niov env =>
    unfold Sys.points at hp; dsimp only at hp
    split at hp
    · split at hp
      · rw [List.mem_singleton.mp hp]
      · have := (shr_readv_mv _ _ _ _ _).points hp
        rw [this]
    · rw [List.mem_singleton.mp hp]
  | flush k w env =>
    unfold Sys.points at hp; dsimp only at hp
    split at hp
    · split at hp
      · rw [List.mem_singleton.mp hp]
      · exact (shr_flush_app (R := SameApp) _ _ _).points hp
    · rw [List.mem_singleton.mp hp]
  | close k env =>
    unfold Sys.points at hp; dsimp only at hp
    split at hp
    · exact (shr_close_app (R := SameApp) _ _).points hp
    · rw [List.mem_singleton.mp hp]
  | stat k reset env =>
    unfold Sys.points at hp; dsimp only at hp
    split at hp
    · rcases Ok.points (shr_stat_crash _ reset env s.ring) (fun _ _ x => x) p hp with rfl | ⟨t, rfl⟩ <;> rfl
    · rw [List.mem_singleton.mp hp]
  | farmStat k reset =>
    unfold Sys.points at hp; dsimp only at hp
    split at hp
    · split at hp
      · rw [List.mem_singleton.mp hp]
      · have : Walk SameApp (shr_farm_stat ‹Handle› reset) := by unfold shr_farm_stat; exact .bind .assert fun _ => .pure
        exact this.points hp
    · rw [List.mem_singleton.mp hp]
  | appdata k g t n e => exact absurd rfl (hop k g t n e)

/-- **C33, as if the call had not been made.**  The caller of `op` (not a `shr_appdata` call) died, the
control block is consistent and what is unread is what was unread before the call.  Then nobody else notices: any
calls on other handles return what they would have returned if `op` had not been called (except for
counters that were changed). -/
theorem C33_as_if_never_partial (hi : a.WF) (hnf : a.flags.has SHR_FARM = false) (h : Survivor a s) (hw : op.WF a.appsize)
    (hop : ∀ k g t n e, op ≠ .appdata k g t n e) (hp : p ∈ s.points op) (hc : p.Consistent)
    (hu : p.unreadMsgs = s.ring.unreadMsgs) (more : List Op)
    (hwf : ∀ q ∈ more, q.WF a.appsize) (hne : ∀ q ∈ more, q.handle ≠ op.handle) :
    ∃ s2 t2 o1 o2, (s.killed op p).run more = .ok (s2, o1) ∧ s.run more = .ok (t2, o2) ∧
      o1.map Out.noCounters = o2.map Out.noCounters ∧ (p.stat = s.ring.stat → o1 = o2) ∧
      s2.ring.unreadMsgs = t2.ring.unreadMsgs ∧ s2.ring.app = t2.ring.app :=
  C33_indistinguishable_partial hi hnf h hw hp hc h (fun _ _ => rfl) (points_app hop hp).symm hu.symm more hwf hne

theorem step_other {o : Out} (hs : s.step op = .ok (s', o)) : ∀ j, j ≠ op.handle → s'.hs j = s.hs j := by
  intro j hj
  cases op <;> unfold Sys.step at hs <;> dsimp only at hs <;> dsimp only [Op.handle] at hj
  all_goals (repeat' split at hs) <;> first | (cases hs; rfl) | (cases hs; dsimp only; unfold upd; rw [if_neg hj]) | (cases hs)

/-- **C33, as if the call had been completed.**  The caller of `op` died, the control block is
consistent, and what is unread and the app data are what they would have been if the call had been completed.
Then nobody else notices: any calls on other handles return what they would have returned in that case
(except for counters not yet updated). -/
theorem C33_as_if_completed_partial (hi : a.WF) (hnf : a.flags.has SHR_FARM = false) (h : Survivor a s) (hw : op.WF a.appsize)
    (hp : p ∈ s.points op) (hc : p.Consistent) {o : Out} (hs : s.step op = .ok (s', o)) (ha : p.app = s'.ring.app)
    (hu : p.unreadMsgs = s'.ring.unreadMsgs) (more : List Op)
    (hwf : ∀ q ∈ more, q.WF a.appsize) (hne : ∀ q ∈ more, q.handle ≠ op.handle) :
    ∃ s2 t2 o1 o2, (s.killed op p).run more = .ok (s2, o1) ∧ s'.run more = .ok (t2, o2) ∧
      o1.map Out.noCounters = o2.map Out.noCounters ∧ (p.stat = s'.ring.stat → o1 = o2) ∧
      s2.ring.unreadMsgs = t2.ring.unreadMsgs ∧ s2.ring.app = t2.ring.app :=
  C33_indistinguishable_partial hi hnf h hw hp hc (.call h hw hs) (step_other hs) ha.symm hu.symm more hwf hne

/-! ## Which points are consistent -/

/-- The points inside a call of a writer, on any ring in order. -/
theorem rel_writer_points {k : Nat} {iov : List Msg} {sp : Spec} (hr : Rel s sp) (hw : op.WF sp.app.length) (hwc : WriterCall k iov op)
    (hone : s.cached k = [] ∨ iov = []) (hp : p ∈ s.points op) :
    PointOk s.ring (Fits sp.cap sp.maxm sp.unread (s.cached k ++ iov) ∨ sp.drop = false) p := by
  have hself : p = s.ring → PointOk s.ring (Fits sp.cap sp.maxm sp.unread (s.cached k ++ iov) ∨ sp.drop = false) p := by
    rintro rfl; exact hr.ring.consistent.pointOk
  cases e : s.hs k with
  | never => refine hself ?_; cases hwc <;> simpa [Sys.points, e] using hp
  | gone b => refine hself ?_; cases hwc <;> simpa [Sys.points, e] using hp
  | live hd =>
    obtain ⟨sh, hsk, hh⟩ := hr.live e
    have hcm : s.cached k = sh.pend := by unfold Sys.cached; rw [e]; exact hh.cache.msgs
    have conv : ∀ new, s.cached k ++ iov = new → PointOk s.ring (Fits sp.cap sp.maxm sp.unread new ∨ sp.drop = false) p →
        PointOk s.ring (Fits sp.cap sp.maxm sp.unread (s.cached k ++ iov) ∨ sp.drop = false) p := by
      rintro new rfl h; exact h
    cases hwc with
    | write iov envF env =>
      by_cases hwr : hd.flags.has SHR_WRONLY = false
      · exact hself (by simpa [Sys.points, e, hwr] using hp)
      · have hpt : p ∈ (shr_writev hd iov envF env s.ring).points := by simpa [Sys.points, e, hwr] using hp
        by_cases hp0 : sh.pend = []
        · exact conv iov (by rw [hcm, hp0]; rfl) (Ok.points (shr_writev_points hr.ring hh (by rw [← hh.flags]; simpa using hwr) hw envF env hp0)
            (fun _ _ h => h) p hpt)
        · -- the write of no message at all: refused
          have hio : iov = [] := by
            rcases hone with h | h
            · rw [hcm] at h; exact absurd h hp0
            · exact h
          subst hio
          refine hself ?_
          have hwr' : hd.flags.has SHR_WRONLY = true := by simpa using hwr
          unfold shr_writev Run.points at hpt
          rw [M.bind_apply, hwr', M.assert_true] at hpt
          simpa [lenCheck, lenLoop, Run.final, M.pure_apply] using hpt
    | flush wait env =>
      by_cases hwr : hd.flags.has SHR_WRONLY = false
      · exact hself (by simpa [Sys.points, e, hwr] using hp)
      · have hpt : p ∈ (shr_flush hd wait env s.ring).points := by simpa [Sys.points, e, hwr] using hp
        exact conv sh.pend (by rw [hcm, List.append_nil]) (Ok.points (shr_flush_points hr.ring hh (by rw [← hh.flags]; simpa using hwr) wait env)
          (fun _ _ h => h) p hpt)
    | close env =>
      have hpt : p ∈ (shr_close hd env s.ring).points := by simpa [Sys.points, e] using hp
      exact conv sh.pend (by rw [hcm, List.append_nil]) (Ok.points (shr_close_points hr.ring hh env) (fun _ _ h => h) p hpt)

/-- **C33, which deaths of writers are harmless.**  A process dies inside a write (with nothing cached), flush
or close.  The control block is consistent if its numbers fit to each other: the write position has
not moved, and the read position, the number of unread bytes and the eldest position have moved by as
many messages as the respective message counts have (so the process died before it copied the first message completely,
and not between two related stores).  If nothing has to be dropped it is also consistent as soon as the
count of unread messages has changed, which is the last store that matters. -/
theorem C33_writer_points_partial {k : Nat} {iov : List Msg} (hi : a.WF) (hnf : a.flags.has SHR_FARM = false) (h : Survivor a s)
    (hw : op.WF a.appsize) (hwc : WriterCall k iov op) (hone : s.cached k = [] ∨ iov = []) (hp : p ∈ s.points op) :
    (s.ring.Settled p → p.Consistent) ∧
    (a.flags.has SHR_DROP = false ∨ Fits a.dataSz a.max_msgs s.ring.unreadMsgs (s.cached k ++ iov) →
      p.m ≠ s.ring.m → p.Consistent) := by
  obtain ⟨sp, x, ha⟩ := h.rel hi hnf
  obtain ⟨h1, h2⟩ := rel_writer_points x.rel (by rw [ha]; exact hw) hwc hone hp
  refine ⟨h1, fun hd => h2 ?_⟩
  rw [x.drop, hnf, x.cap, x.maxm, ← x.rel.ring.unreadMsgs]
  rcases hd with h | h
  · rw [h]; exact .inr rfl
  · exact .inl h

/-- **C33, which deaths of readers are harmless.**  A process dies inside a read.  If the read position and the
number of unread bytes have moved by as many messages as the count of unread messages has, the control
block is consistent, and what is unread is what was unread before without these messages (which
the dead reader had received). -/
theorem C33_reader_points_partial {k : Nat} {buf : List Byte} {niov : Nat} {env : Env} (hi : a.WF) (hnf : a.flags.has SHR_FARM = false)
    (h : Survivor a s) (hp : p ∈ s.points (.readv k buf niov env)) (hs : s.ring.Settled p) :
    p.Consistent ∧ p.unreadMsgs = s.ring.unreadMsgs.drop (s.ring.m - p.m) := by
  obtain ⟨sp, x, ha⟩ := h.rel hi hnf
  have hmv : MovedR s.ring p := by
    unfold Sys.points at hp; dsimp only at hp
    split at hp
    · split at hp
      · rw [List.mem_singleton.mp hp]; exact .refl _
      · exact (shr_readv_mv _ _ _ _ _).points hp
    · rw [List.mem_singleton.mp hp]; exact .refl _
  have hc := x.rel.ring.consistent
  have hcp := hc.moved hs (by rw [hmv]) (by rw [hmv]) (by rw [hmv]) (by rw [hmv]) (by rw [hmv])
  refine ⟨hcp, ?_⟩
  have hpr : p.presentMsgs = s.ring.presentMsgs := by rw [hmv]; rfl
  have hmp : p.mp = s.ring.mp := by rw [hmv]
  rw [hcp.unread_present, hc.unread_present, hpr, List.drop_drop, hmp]
  have h1 := hs.m; have h2 := hc.m
  congr 1; omega

end

theorem Survivor.of_run {a : InitArgs} : ∀ (ops : List Op) {s s' : Sys} {outs : List Out}, Survivor a s → (∀ op ∈ ops, op.WF a.appsize) →
    s.run ops = .ok (s', outs) → Survivor a s' := by
  intro ops
  induction ops with
  | nil => intro s s' outs h _ e; cases e; exact h
  | cons op ops ih =>
    intro s s' outs h hw e
    unfold Sys.run at e
    cases h1 : s.step op with
    | error f => rw [h1] at e; cases e
    | ok x =>
      obtain ⟨s1, o1⟩ := x
      rw [h1] at e
      dsimp only at e
      cases h2 : s1.run ops with
      | error f => rw [h2] at e; cases e
      | ok y =>
        obtain ⟨s2, o2⟩ := y
        rw [h2] at e
        cases e
        exact ih (.call h (hw op (by simp)) h1) (fun q hq => hw q (by simp [hq])) h2

/-- Every ordinary history leads to a survivor. -/
theorem Valid.survivor {a : InitArgs} {ops : List Op} (v : Valid a ops) {s : Sys} {outs : List Out}
    (h : (Sys.init a).run ops = .ok (s, outs)) : Survivor a s := .of_run ops .new v.wf h

/-! ## Non-vacuity: the ring of 10 bytes of `Props/Crash.lean` -/

theorem cr_survivor : Survivor crA (final crA crOps) := cr_valid.left.survivor cr_valid.left.runs

/-- Writer 0 died right after it counted its messages, reader 1 died after it had received the message 1 2 3 4. -/
def crDead1 : Sys := (final crA crOps).killed crOp crEnd
def crRdEnd : Ring := (crDead1.points crRd).getD 3 crDead1.ring
def crDead2 : Sys := crDead1.killed crRd crRdEnd

theorem crEnd_consistent : crEnd.Consistent := by decide +kernel
theorem crDead1_survivor : Survivor crA crDead1 := .death cr_survivor (cr_valid.wf crOp (by simp)) crEnd_mem crEnd_consistent
theorem crRd_wf : crRd.WF crA.appsize := Op.WF_of_ok (by decide +kernel)
theorem crRdEnd_mem : crRdEnd ∈ crDead1.points crRd := crash_getD_mem (by
  have : (crDead1.points crRd).length = 6 := by decide +kernel
  rw [this]; omega)
theorem crRdEnd_consistent : crRdEnd.Consistent := by decide +kernel
theorem crDead2_survivor : Survivor crA crDead2 := .death crDead1_survivor crRd_wf crRdEnd_mem crRdEnd_consistent

/-- After the two deaths: the batch is there, and a new reader gets it. -/
example : crDead2.ring.unreadMsgs = [[5, 6, 7, 8], [9]] := by decide +kernel
example : crDead2.ring.Consistent := (C33_survivors_partial cr_valid.init (by decide +kernel) crDead2_survivor [] (by simp)).1
example : crDead2.outs [opn 3 (SHR_RDONLY ||| SHR_NONBLOCK), rd 3 10 5, wr 2 [[1]], rd 3 10 5] =
    [.opened true, .read 5 [(0, 4), (4, 1)] [5, 6, 7, 8, 9, 0, 0, 0, 0, 0], .wrote 1, .read 1 [(0, 1)] [1, 0, 0, 0, 0, 0, 0, 0, 0, 0]] := by
  decide +kernel
example : ∃ s' outs, crDead1.run [crRd] = .ok (s', outs) ∧ delivered outs ++ s'.ring.unreadMsgs = [[1, 2, 3, 4], [5, 6, 7, 8], [9]] := by
  have h := C33_survivors_deliver_partial cr_valid.init (by decide +kernel) crDead1_survivor [crRd]
    (by intro op h; rw [List.mem_singleton.mp h]; exact ⟨_, _, _, _, rfl, by decide +kernel⟩)
  have e : crDead1.ring.unreadMsgs = [[1, 2, 3, 4], [5, 6, 7, 8], [9]] := by decide +kernel
  rw [e] at h
  exact h

/-- The ring when writer 0 has stored the position and length of its first message and two of its bytes. -/
def crEarly : Ring := ((final crA crOps).points crOp).getD 7 (final crA crOps).ring
theorem crEarly_mem : crEarly ∈ (final crA crOps).points crOp := crash_getD_mem (by rw [cr_length]; omega)
theorem crEarly_settled : (final crA crOps).ring.Settled crEarly :=
  ⟨by decide +kernel, by decide +kernel, by decide +kernel, by decide +kernel, by decide +kernel, by decide +kernel, by decide +kernel⟩
theorem crEarly_consistent : crEarly.Consistent :=
  (C33_writer_points_partial cr_valid.init (by decide +kernel) cr_survivor (cr_valid.wf crOp (by simp)) (.write _ _ _)
    (.inl (by decide +kernel)) crEarly_mem).1 crEarly_settled
example : crEnd.Consistent :=
  (C33_writer_points_partial cr_valid.init (by decide +kernel) cr_survivor (cr_valid.wf crOp (by simp)) (.write _ _ _)
    (.inl (by decide +kernel)) crEnd_mem).2 (.inl (by decide +kernel)) (by decide +kernel)
example : crEarly.d ≠ (final crA crOps).ring.d ∧ crEarly.mv ≠ (final crA crOps).ring.mv := by decide +kernel
/-- The half-way point of the counterexample is torn. -/
example : ¬ crMid.Consistent := by decide +kernel
example : ¬ crRdMid.Consistent := by decide +kernel

/-- Calls of the others after the deaths. -/
def crMore : List Op := [opn 3 (SHR_RDONLY ||| SHR_NONBLOCK), wr 2 [[21, 22, 23, 24, 25]], rd 3 10 5, .stat 3 none {}]
theorem crMore_wf : ∀ q ∈ crMore, q.WF crA.appsize :=
  have v : Valid crA crMore := valid_of (by decide +kernel)
  v.wf

example : ∃ s2 t2 o, ((final crA crOps).killed crOp crEarly).run crMore = .ok (s2, o) ∧ (final crA crOps).run crMore = .ok (t2, o) := by
  obtain ⟨s2, t2, o1, o2, h1, h2, _, h4, _⟩ := C33_as_if_never_partial cr_valid.init (by decide +kernel) cr_survivor
    (cr_valid.wf crOp (by simp)) (fun _ _ _ _ _ h => by cases h) crEarly_mem crEarly_consistent (by decide +kernel) crMore crMore_wf
    (by decide +kernel)
  have e := h4 (by decide +kernel)
  exact ⟨s2, t2, o1, h1, by rw [e]; exact h2⟩

/-- The writer that died after counting its messages has not counted them in the statistics. -/
example : ∃ s2 t2 o1 o2, ((final crA crOps).killed crOp crEnd).run crMore = .ok (s2, o1) ∧
    (final crA (crOps ++ [crOp])).run crMore = .ok (t2, o2) ∧ o1.map Out.noCounters = o2.map Out.noCounters := by
  have hs : (final crA crOps).step crOp = .ok (final crA (crOps ++ [crOp]), lastOut crA (crOps ++ [crOp])) := cr_valid.steps
  obtain ⟨s2, t2, o1, o2, h1, h2, h3, _⟩ := C33_as_if_completed_partial cr_valid.init (by decide +kernel) cr_survivor
    (cr_valid.wf crOp (by simp)) crEnd_mem crEnd_consistent hs (by decide +kernel) (by decide +kernel) crMore crMore_wf (by decide +kernel)
  exact ⟨s2, t2, o1, o2, h1, h2, h3⟩
example : ((final crA crOps).killed crOp crEnd).outs crMore ≠ (final crA (crOps ++ [crOp])).outs crMore := by decide +kernel

example : crRdEnd.unreadMsgs = crDead1.ring.unreadMsgs.drop 1 :=
  (C33_reader_points_partial cr_valid.init (by decide +kernel) crDead1_survivor crRdEnd_mem
    ⟨by decide +kernel, by decide +kernel, by decide +kernel, by decide +kernel, by decide +kernel, by decide +kernel, by decide +kernel⟩).2

end Shr
