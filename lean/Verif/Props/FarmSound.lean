import Verif.Props.FarmLife
import Verif.Props.Usable
/-!
# Farm rings on which a death has left the control block in working order (C97)
-/
namespace Shr

/-! ## The counters are 64-bit numbers -/

theorem Shows.framed {a : InitArgs} {s : Sys} {sp : Spec} (h : Shows a s sp) (hst : ∃ st : SStat, s.ring.stat = st.toStat) : FramedRing s.ring s.ring := by
  obtain ⟨O, E, hg⟩ := h.ring.geo
  exact ⟨⟨hg.nbd, hg.mmbd, hg.dlen, hg.mvlen, h.typed.app.symm⟩, hst, rfl, rfl, rfl, rfl⟩

theorem Shows.points_framed {a : InitArgs} {s : Sys} {sp : Spec} (h : Shows a s sp) (hst : ∃ st : SStat, s.ring.stat = st.toStat) {op : Op}
    (hw : op.WF a.appsize) {p : Ring} (hp : p ∈ s.points op) : FramedRing s.ring p := by
  have hfr := h.framed hst
  have hc : ∀ hd, s.hs op.handle = .live hd → hd.c.buf.length < W := fun hd hk => by
    obtain ⟨sh, _, hh⟩ := h.live hk
    exact hh.buf_lt
  have steps : op.Small → FramedRing s.ring p := fun hs => hfr.steps (points_steps hs hc h.typed p hp)
  cases op with
  | writev k iov e1 e2 => exact steps fun b hb => by have := hw.1 b hb; rw [SSIZE_MAX_val] at this; rw [W_val]; omega
  | stat k reset env =>
    unfold Sys.points at hp
    dsimp only at hp
    split at hp
    · rcases (shr_stat_crash _ reset env s.ring).points (fun _ _ h => h) p hp with rfl | ⟨t, rfl⟩
      · exact hfr
      · obtain ⟨hz, _, b1, b2, b3, b4⟩ := hfr
        exact ⟨⟨hz.1, hz.2, hz.3, hz.4, hz.5⟩, ⟨{ start := t }, by simp [SStat.toStat]⟩, b1, b2, b3, b4⟩
    · rw [List.mem_singleton.mp hp]; exact hfr
  | «open» k flags env => exact steps trivial
  | readv k buf niov env => exact steps trivial
  | flush k wait env => exact steps trivial
  | close k env => exact steps trivial
  | farmStat k reset => exact steps trivial
  | appdata k get set sz env => exact steps trivial

theorem FarmLife.counters {a : InitArgs} {evs : List FarmEv} {s : Sys} (h : FarmLife a evs s) (ha : a.WF) (hf : a.flags.has SHR_FARM = true)
    (hn : 2 * a.max_msgs * evs.length < W) : ∃ st : SStat, s.ring.stat = st.toStat := by
  induction h with
  | new => exact ⟨_, (init_rel a ha).ring.stat⟩
  | @call evs s s' op o h hw hs ih =>
    rw [List.length_append, Nat.mul_add] at hn
    obtain ⟨sp, h1, h2, h3⟩ := h.shows ha hf (by omega)
    exact (h2.points_framed (ih (by omega)) hw (step_points hs)).st
  | @death evs s op j p h hw hs ih =>
    rw [List.length_append, Nat.mul_add] at hn
    obtain ⟨sp, h1, h2, h3⟩ := h.shows ha hf (by omega)
    exact (h2.points_framed (ih (by omega)) hw (List.mem_of_getElem? hs.1)).st

/-! ## A farm ring in working order represents a state of the queue machine -/

/-- The state of the queue machine that a sound farm ring stands for: the log, the number of messages gone and the handles are those of the history. -/
def Spec.at (sp : Spec) (r : Ring) (st : SStat) : Spec := { sp with first := sp.base, st := st, app := r.app }

theorem Shows.rel {a : InitArgs} {s : Sys} {sp : Spec} (h : Shows a s sp) (hd : a.flags.has SHR_FARM = true) (hs : s.ring.FarmSound) {st : SStat}
    (hst : s.ring.stat = st.toStat) : Rel s (sp.at s.ring st) := by
  have hz := (h.framed ⟨st, hst⟩).sized
  have hg := hs.cons.geo hz
  have hP : s.ring.presentMsgs = sp.log.drop sp.base := h.ring.present
  have hlog : (sp.at s.ring st).log = sp.log := rfl
  have hret : (sp.at s.ring st).retained = s.ring.presentMsgs := by rw [hP]; rfl
  have he := h.ring.e
  have h0 : (sp.at s.ring st).first - (sp.at s.ring st).base = 0 := Nat.sub_self _
  have hpl := s.ring.present_length
  have hm := hs.all
  refine ⟨⟨?_, Nat.le_refl _, h.ring.gle, h.ring.n, h.ring.mm, h.rgf, rfl, hz.app, hst, fun _ => ⟨rfl, ?_, h.ring.lw⟩⟩, ?_⟩
  · rw [h0, hret]
    show Rep s.ring sp.base 0 s.ring.presentMsgs
    refine ⟨⟨_, ⟨⟨hg.npos, hg.nbd, hg.mmpos, hg.mmbd, hg.dlen, hg.mvlen, hg.ne, hg.tot, hg.cnt, hg.p0lt, ?_, hg.data⟩, hg.ieq⟩⟩, Nat.zero_le _, hpl.symm, by omega,
      ?_, he, fun _ => ?_, ?_⟩
    · intro j b hj
      have := hg.slots j b hj
      rwa [he, Nat.mod_add_mod] at this
    · have h1 := s.ring.present_bytes (Nat.le_refl s.ring.mp)
      rw [← hpl, List.take_length, hpl] at h1
      rw [hs.cons.u, hm, List.drop_zero, h1]
      simp [Ring.lensTo]
    · have := h.ring.gle; have := h.ring.lw
      rw [h.ring.q, Nat.mod_eq_of_lt (by omega)]
    · rw [hs.cons.r, hm, Nat.sub_self, he]; simp
  · show sp.gflags.has SHR_DROP = true
    rw [h.gf, gflags_drop, hd, Bool.or_true]
  · intro k
    exact LRel.mono (sp := sp) (sp' := sp.at s.ring st) ⟨rfl, rfl, rfl, Nat.le_refl _⟩ (h.hs k)

theorem RingRel.farmSound {r : Ring} {sp : Spec} (h : RingRel r sp) (hf : sp.farm = true) : r.FarmSound := by
  refine ⟨h.consistent, ?_⟩
  obtain ⟨h1, _, _⟩ := h.farm hf
  rw [h.rep.m, h.rep.mp, h1]; simp

section
variable {a : InitArgs} {evs : List FarmEv} {s : Sys} {p : Ring}

theorem FarmLife.rel (ha : a.WF) (hf : a.flags.has SHR_FARM = true) (h : FarmLife a evs s) (hn : 2 * a.max_msgs * evs.length < W) (hs : s.ring.FarmSound) :
    ∃ sp st, FarmRun a evs sp ∧ Shows a s sp ∧ Rel s (sp.at s.ring st) ∧ sp.log.length ≤ 2 * a.max_msgs * evs.length := by
  obtain ⟨sp, h1, h2, h3⟩ := h.shows ha hf hn
  obtain ⟨st, hst⟩ := h.counters ha hf hn
  exact ⟨sp, st, h1, h2, h2.rel hf hs hst, h3⟩

/-- **C97.**  Calls have completed on a farm ring and callers have died inside calls.  If the control block is now in working order, everything that
follows is as on a ring where nobody ever died: all calls, also those of the writers, complete and return what the queue machine
says, started with the messages, the positions of the readers and the missed counts of the history; and the control block stays in working order. -/
theorem C97_goes_on (ha : a.WF) (hf : a.flags.has SHR_FARM = true) (h : FarmLife a evs s) (hs : s.ring.FarmSound) (more : List Op)
    (hw : ∀ op ∈ more, op.WF a.appsize) (hn : 2 * a.max_msgs * evs.length + more.length * (a.max_msgs + offered more) < W) :
    ∃ sp q : Spec, FarmRun a evs sp ∧ q.log = sp.log ∧ q.base = sp.base ∧ q.hs = sp.hs ∧ q.cap = a.dataSz ∧ q.maxm = a.max_msgs ∧ q.gflags = a.gflags ∧
      q.first = q.base ∧ q.app = s.ring.app ∧ q.retained = s.ring.presentMsgs ∧
      ∃ s', s.run more = .ok (s', (q.run more).2) ∧ s'.ring.FarmSound ∧ s'.ring.presentMsgs = (q.run more).1.retained := by
  obtain ⟨sp, st, h1, h2, h3, h4⟩ := h.rel ha hf (by omega) hs
  have hal : (sp.at s.ring st).app.length = a.appsize := by rw [← h3.ring.app_len]; exact h2.al
  have hp : PendLe (sp.at s.ring st) a.max_msgs := by
    intro k sh hk
    have := h3.hs k
    rw [hk] at this
    cases e : s.hs k with
    | live hd =>
      rw [e] at this
      have hh : HRel (sp.at s.ring st) hd sh := this
      have h5 := hh.cache.vle; have h6 := hh.cvt; have h7 := h2.maxm
      have : (sp.at s.ring st).maxm = sp.maxm := rfl
      omega
    | never => rw [e] at this; exact this.elim
    | gone _ => rw [e] at this; exact this.elim
  have hc := run_count more hp
  have hl : (sp.at s.ring st).log = sp.log := rfl
  rw [hl] at hc
  obtain ⟨s', e, r⟩ := run_refine more h3 (by rw [hal]; exact hw) (fun _ => by omega)
  have hfm : ((sp.at s.ring st).run more).1.farm = true := by
    have := (run_le more (sp.at s.ring st)).gf
    unfold Spec.farm
    rw [this]; exact h2.farm
  exact ⟨sp, sp.at s.ring st, h1, rfl, rfl, rfl, h2.cap, h2.maxm, h2.gf, rfl, rfl, h2.ring.present.symm, s', e, r.ring.farmSound hfm, r.ring.presentMsgs⟩

/-- **C97, a new ring is in working order**, and so is every ring on which all calls have completed. -/
theorem C97_calls_keep_order (ha : a.WF) (hf : a.flags.has SHR_FARM = true) (h : FarmLife a evs s) (hs : s.ring.FarmSound) {op : Op} (hw : op.WF a.appsize)
    (hn : 2 * a.max_msgs * evs.length + (a.max_msgs + offered [op]) < W) : ∃ s' o, s.step op = .ok (s', o) ∧ s'.ring.FarmSound := by
  obtain ⟨sp, q, _, _, _, _, _, _, _, _, _, _, s', e, h1, _⟩ := C97_goes_on ha hf h hs [op] (fun x hx => by rw [List.mem_singleton.mp hx]; exact hw) (by simpa using hn)
  obtain ⟨s1, o, os, f1, f2, f3⟩ := sys_run_cons_ok e
  cases f2
  exact ⟨_, o, f1, h1⟩

/-- **C97, deaths of callers that do not write.**  Whoever is killed while opening, reading, or looking at the counters or the app data, wherever inside
the call, leaves the control block in working order and all messages as they were. -/
theorem C97_lookers_harmless (ha : a.WF) (hf : a.flags.has SHR_FARM = true) (h : FarmLife a evs s) (hn : 2 * a.max_msgs * evs.length < W)
    (hs : s.ring.FarmSound) {op : Op} (hw : op.WF a.appsize) (hl : op.looks = true) (hp : p ∈ s.points op) :
    p.FarmSound ∧ p.presentMsgs = s.ring.presentMsgs := by
  obtain ⟨sp, h1, h2, _⟩ := h.shows ha hf hn
  have key : ∀ p : Ring, p = { s.ring with stat := p.stat, app := p.app } → p.FarmSound ∧ p.presentMsgs = s.ring.presentMsgs := by
    intro p e
    rw [e]
    exact ⟨⟨hs.cons.congr rfl rfl rfl rfl rfl rfl rfl rfl rfl, hs.all⟩, rfl⟩
  have one : s.points op = [s.ring] → p.FarmSound ∧ p.presentMsgs = s.ring.presentMsgs := fun e => by
    rw [e] at hp; rw [List.mem_singleton.mp hp]; exact ⟨hs, rfl⟩
  cases op with
  | «open» k flags env => exact one rfl
  | readv k buf niov env =>
    cases e : s.hs k with
    | live hd =>
      obtain ⟨sh, e2, hh⟩ := h2.live e
      by_cases hf : hd.flags.has SHR_RDONLY = false
      · exact one (by unfold Sys.points; dsimp only; rw [e]; dsimp only; rw [if_pos hf])
      have hpts : s.points (.readv k buf niov env) = (shr_readv hd buf buf.length niov env s.ring).points := by
        unfold Sys.points; dsimp only; rw [e]; dsimp only; rw [if_neg hf]
      rw [hpts] at hp
      have e3 := (shr_readv_farm h2.ring h2.farm hh (by rw [← hh.flags]; simpa using hf) buf hw niov env).points (fun _ _ h => h.1) p hp
      exact key p (by rw [e3])
    | _ => exact one (by unfold Sys.points; dsimp only; rw [e])
  | stat k reset env =>
    cases e : s.hs k with
    | live hd =>
      have hpts : s.points (.stat k reset env) = (shr_stat hd reset env s.ring).points := by
        unfold Sys.points; dsimp only; rw [e]
      rw [hpts] at hp
      rcases (shr_stat_crash hd reset env s.ring).points (fun _ _ h => h) p hp with rfl | ⟨t, rfl⟩
      · exact ⟨hs, rfl⟩
      · exact key _ rfl
    | _ => exact one (by unfold Sys.points; dsimp only; rw [e])
  | farmStat k reset =>
    cases e : s.hs k with
    | live hd =>
      by_cases hf : hd.flags.has SHR_RDONLY = false
      · exact one (by unfold Sys.points; dsimp only; rw [e]; dsimp only; rw [if_pos hf])
      have hpts : s.points (.farmStat k reset) = (shr_farm_stat hd reset s.ring).points := by
        unfold Sys.points; dsimp only; rw [e]; dsimp only; rw [if_neg hf]
      rw [hpts] at hp
      rw [(shr_farm_stat_ok (by simpa using hf) reset s.ring).points (fun _ _ h => h.1) p hp]
      exact ⟨hs, rfl⟩
    | _ => exact one (by unfold Sys.points; dsimp only; rw [e])
  | appdata k get set sz env =>
    cases e : s.hs k with
    | live hd =>
      have hpts : s.points (.appdata k get set sz env) = (shr_appdata get set sz env s.ring).points := by
        unfold Sys.points; dsimp only; rw [e]
      rw [hpts] at hp
      rcases (shr_appdata_crash env h2.typed.app (by rw [h2.al]; exact hw)).points (fun _ _ h => h) p hp with rfl | ⟨b, hb, rfl⟩
      · exact ⟨hs, rfl⟩
      · exact key _ rfl
    | _ => exact one (by unfold Sys.points; dsimp only; rw [e])
  | _ => cases hl

/-- **C97, which deaths of writers are harmless.**  A process dies inside a write (with nothing cached), a flush or a close, and the messages present still all
count as unread.  The control block is in working order if its numbers fit to each other: the write position has not moved, and the position of
the eldest message and the byte count have moved by as many messages as the counts have.  If nothing has to be given up for the write, it is also in
working order as soon as the messages have been counted. -/
theorem C97_writer_points {k : Nat} {iov : List Msg} (ha : a.WF) (hf : a.flags.has SHR_FARM = true) (h : FarmLife a evs s)
    (hn : 2 * a.max_msgs * evs.length < W) (hs : s.ring.FarmSound) {op : Op} (hw : op.WF a.appsize) (hwc : WriterCall k iov op)
    (hone : s.cached k = [] ∨ iov = []) (hp : p ∈ s.points op) (hall : p.m = p.mp) :
    (s.ring.Settled p → p.FarmSound) ∧
    (Fits a.dataSz a.max_msgs s.ring.presentMsgs (s.cached k ++ iov) → p.m ≠ s.ring.m → p.FarmSound) := by
  obtain ⟨sp, st, h1, h2, h3, h4⟩ := h.rel ha hf hn hs
  have hal : (sp.at s.ring st).app.length = a.appsize := by rw [← h3.ring.app_len]; exact h2.al
  obtain ⟨g1, g2⟩ := rel_writer_points h3 (by rw [hal]; exact hw) hwc hone hp
  refine ⟨fun h => ⟨g1 h, hall⟩, fun hfit hm => ⟨g2 (.inl ?_) hm, hall⟩⟩
  have e : (sp.at s.ring st).unread = s.ring.presentMsgs := h2.ring.present.symm
  rw [e]
  show Fits sp.cap sp.maxm _ _
  rw [h2.cap, h2.maxm]; exact hfit

end

/-! ## Cases

The ring of `flOps`: 0 is killed while it copies the first of two messages (after it has given up the eldest one), or after it has counted
both. -/

theorem fl_life_at {j : Nat} (hc : calmB (final demoF flOps) flOp j = true) :
    ∃ evs, FarmLife demoF evs ((final demoF flOps).killed flOp (flPt j)) ∧ evs.length = 5 := by
  have v : Valid demoF flOps := valid_of (by decide +kernel)
  have h := FarmLife.death ((FarmLife.new (a := demoF)).run v.wf v.runs) (op := flOp) (j := j) (by unfold flOp wr Op.WF; decide)
    (calmAt_of (d := initRing demoF) hc)
  refine ⟨_, h, ?_⟩
  have : (outsOf demoF flOps).length = 4 := by decide +kernel
  have h4 : flOps.length = 4 := rfl
  simp [this, h4]

/-- What 3 and 1 do then. -/
def flMore : List Op := [wr 3 [[21, 22]], wr 3 [[23]], wr 3 [[24]], rd 1 20 5, .farmStat 1 false]

theorem flMore_wf : ∀ op ∈ flMore, op.WF demoF.appsize := by
  intro op h
  simp only [flMore, List.mem_cons, List.not_mem_nil, or_false] at h
  rcases h with rfl | rfl | rfl | rfl | rfl
  · unfold wr Op.WF; decide
  · unfold wr Op.WF; decide
  · unfold wr Op.WF; decide
  · unfold rd Op.WF; decide
  · trivial

/-- The theorem applies to both deaths. -/
example : ∀ j, j = 10 ∨ j = 22 → ∃ s' q, ((final demoF flOps).killed flOp (flPt j)).run flMore = .ok (s', (Spec.run q flMore).2) ∧ s'.ring.FarmSound := by
  intro j hj
  have v : Valid demoF flOps := valid_of (by decide +kernel)
  have hc : calmB (final demoF flOps) flOp j = true := by rcases hj with rfl | rfl <;> decide +kernel
  have hs : ((final demoF flOps).killed flOp (flPt j)).ring.FarmSound := by rcases hj with rfl | rfl <;> decide +kernel
  obtain ⟨evs, h, hl⟩ := fl_life_at hc
  obtain ⟨sp, q, _, _, _, _, _, _, _, _, _, _, s', e, h1, _⟩ := C97_goes_on v.init (by decide) h hs flMore flMore_wf (by rw [hl]; decide +kernel)
  exact ⟨s', q, e, h1⟩

/-- What they get, if 0 died while copying: its messages are not there. -/
example : outcome (((final demoF flOps).killed flOp (flPt 10)).run flMore) =
    some [.wrote 2, .wrote 1, .wrote 1, .read 4 [(0, 2), (2, 1), (3, 1)] ([21, 22, 23, 24] ++ List.replicate 16 0), .farm 2] := by decide +kernel

/-- A point inside the write of `C97_writer_points`, first kind: nothing published, the eldest message given up. -/
example : (final demoF flOps).ring.Settled (flPt 10) ∧ (flPt 10).m = (flPt 10).mp ∧ (flPt 10).mp ≠ (final demoF flOps).ring.mp := by
  refine ⟨⟨?_, ?_, ?_, ?_, ?_, ?_, ?_⟩, ?_, ?_⟩ <;> decide +kernel

/-- At a point where the numbers do not fit, the control block is not in working order (and the writers fail: `C96_writers_may_abort`). -/
example : ¬ (flPt 15).FarmSound := by decide +kernel

/-- Second kind: a message that fits has been counted, the statistics have not. -/
example : ∃ p ∈ (final demoF flOps).points (wr 0 [[8]]), p.m = p.mp ∧ p.m ≠ (final demoF flOps).ring.m ∧ p.stat = (final demoF flOps).ring.stat ∧
    Fits demoF.dataSz demoF.max_msgs (final demoF flOps).ring.presentMsgs ((final demoF flOps).cached 0 ++ [[8]]) := by
  refine ⟨((final demoF flOps).points (wr 0 [[8]])).getD 10 (initRing demoF), crash_getD_mem ?_, ?_, ?_, ?_, ?_⟩ <;> decide +kernel

/-- A reader killed inside its read: the counters have changed, nothing else. -/
example : ∃ p ∈ (final demoF flOps).points (rd 1 20 5), p.stat ≠ (final demoF flOps).ring.stat ∧ p.FarmSound := by
  refine ⟨((final demoF flOps).points (rd 1 20 5)).getD 1 (initRing demoF), crash_getD_mem ?_, ?_, ?_⟩ <;> decide +kernel

end Shr
