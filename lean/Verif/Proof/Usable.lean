import Verif.Proof.Twin
import Verif.Proof.Demo
/-! # Continuing on a consistent ring -/
namespace Shr

/-- `Sized` and the form of the counters are kept by stores. -/
structure FramedRing (r p : Ring) : Prop where
  sized : Sized p
  st : ∃ st : SStat, p.stat = st.toStat
  gf : p.gflags = r.gflags
  n : p.n = r.n
  mm : p.mm = r.mm
  al : p.app_len = r.app_len

theorem FramedRing.store {r p p' : Ring} (h : FramedRing r p) (hs : IsStore p p') : FramedRing r p' := by
  obtain ⟨⟨a1, a2, a3, a4, a5⟩, ⟨st, hst⟩, b1, b2, b3, b4⟩ := h
  obtain ⟨s, hb, rfl⟩ := hs
  have upd : ∀ (x : Stat) (st' : SStat), x = st'.toStat →
      FramedRing r { p with stat := x } := fun x st' e => ⟨⟨a1, a2, a3, a4, a5⟩, ⟨st', e⟩, b1, b2, b3, b4⟩
  cases s <;> simp only [Store.inBounds] at hb <;> simp only [Store.onRing]
  case bw v => exact upd _ { st with bw := v } (by rw [hst]; simp only [SStat.toStat]; rw [Nat.mod_eq_of_lt hb])
  case br v => exact upd _ { st with br := v } (by rw [hst]; simp only [SStat.toStat]; rw [Nat.mod_eq_of_lt hb])
  case mw v => exact upd _ { st with mw := v } (by rw [hst]; simp only [SStat.toStat]; rw [Nat.mod_eq_of_lt hb])
  case mr v => exact upd _ { st with mr := v } (by rw [hst]; simp only [SStat.toStat]; rw [Nat.mod_eq_of_lt hb])
  case md v => exact upd _ { st with md := v } (by rw [hst]; simp only [SStat.toStat]; rw [Nat.mod_eq_of_lt hb])
  case bd v => exact upd _ { st with bd := v } (by rw [hst]; simp only [SStat.toStat]; rw [Nat.mod_eq_of_lt hb])
  case statZero => exact upd _ {} (by simp [SStat.toStat])
  case start t => exact upd _ { st with start := t } (by rw [hst]; rfl)
  case data o b =>
    exact ⟨⟨a1, a2, by dsimp only; rw [put_length (by omega)]; exact a3, a4, a5⟩, ⟨st, hst⟩, b1, b2, b3, b4⟩
  case app o b =>
    exact ⟨⟨a1, a2, a3, a4, by dsimp only; rw [put_length (by omega)]; exact a5⟩, ⟨st, hst⟩, b1, b2, b3, b4⟩
  case pos o b => exact ⟨⟨a1, a2, a3, by simp [a4], a5⟩, ⟨st, hst⟩, b1, b2, b3, b4⟩
  case len o b => exact ⟨⟨a1, a2, a3, by simp [a4], a5⟩, ⟨st, hst⟩, b1, b2, b3, b4⟩
  all_goals exact ⟨⟨a1, a2, a3, a4, a5⟩, ⟨st, hst⟩, b1, b2, b3, b4⟩

theorem FramedRing.steps {r p q : Ring} (h : FramedRing r p) (hs : RSteps p q) : FramedRing r q := by
  induction hs with
  | refl => exact h
  | step a _ ih => exact ih (h.store a)

theorem RingRel.framed {r : Ring} {sp : Spec} (h : RingRel r sp) : FramedRing r r := by
  obtain ⟨p0, hg⟩ := h.rep.geo
  exact ⟨⟨hg.nbd, hg.mmbd, hg.dlen, hg.mvlen, by rw [h.app_len, h.app]⟩, ⟨_, h.stat⟩, rfl, rfl, rfl, rfl⟩

/-- All states a caller can be killed in have the sizes and mode of the ring. -/
theorem points_framedRing {s : Sys} {sp : Spec} (h : Rel s sp) {op : Op} (hwf : op.WF sp.app.length) {p : Ring} (hp : p ∈ s.points op) :
    FramedRing s.ring p := by
  have gen : op.Small → FramedRing s.ring p := fun hsm =>
    h.ring.framed.steps (points_steps hsm (fun hd hk => by
      obtain ⟨sh, _, hh⟩ := h.live hk
      rw [hh.cache.blen]; exact hh.cache.szw) h.ring.typed p hp)
  cases op with
  | writev k iov e1 e2 =>
    apply gen
    intro b hb
    have : b.length ≤ SSIZE_MAX := hwf.1 b hb
    rw [SSIZE_MAX_val] at this; rw [W_val]; omega
  | stat k reset env =>
    unfold Sys.points at hp
    dsimp only at hp
    cases e : s.hs k with
    | live hd =>
      rw [e] at hp
      dsimp only at hp
      have := Ok.points (shr_stat_crash hd reset env s.ring) (fun _ _ x => x) p hp
      rcases this with rfl | ⟨t, rfl⟩
      · exact h.ring.framed
      · obtain ⟨hz, _, b1, b2, b3, b4⟩ := h.ring.framed
        exact ⟨⟨hz.1, hz.2, hz.3, hz.4, hz.5⟩, ⟨{ start := t }, by simp [SStat.toStat]⟩, b1, b2, b3, b4⟩
    | never => rw [e] at hp; rw [List.mem_singleton.mp hp]; exact h.ring.framed
    | gone b => rw [e] at hp; rw [List.mem_singleton.mp hp]; exact h.ring.framed
  | _ => exact gen trivial

theorem HRel.nonfarm {sp sq : Spec} (hnf : sq.farm = false) (h1 : sp.cap = sq.cap) (h2 : sp.maxm = sq.maxm) {hd : Handle} {sh : SHandle}
    (h : HRel sp hd sh) : HRel sq hd sh :=
  ⟨h.flags, by rw [h.n, h1], by rw [h.mm, h2], ⟨(fun e => by rw [hnf] at e; cases e), h.cur.md⟩, h.cache, by rw [← h1]; exact h.csz,
    by rw [← h2]; exact h.cvt, h.nbuf, h.r2w, h.mode⟩

theorem LRel.nonfarm {sp sq : Spec} (hnf : sq.farm = false) (h1 : sp.cap = sq.cap) (h2 : sp.maxm = sq.maxm) {x : Life Handle Unit}
    {y : Life SHandle (List Msg)} (h : LRel sp x y) : LRel sq x y := by
  cases x <;> cases y <;> simp only [LRel] at h ⊢
  exact h.nonfarm hnf h1 h2

/-- A system with a consistent ring whose handles are in order. -/
theorem killed_rel {s : Sys} {sp : Spec} (h : Rel s sp) (hnf : sp.farm = false) {op : Op} (hwf : op.WF sp.app.length) {p : Ring}
    (hp : p ∈ s.points op) (hc : p.Consistent) :
    ∃ sp', Rel (s.killed op p) sp' ∧ sp'.farm = false ∧ sp'.cap = sp.cap ∧ sp'.maxm = sp.maxm ∧ sp'.gflags = sp.gflags ∧
      sp'.app.length = sp.app.length := by
  obtain ⟨hz, ⟨st, hst⟩, g1, g2, g3, g4⟩ := points_framedRing h hwf hp
  have hf : p.gflags.has SHR_FARM = false := by rw [g1, h.ring.gf]; exact hnf
  refine ⟨specOf p st (upd sp.hs op.handle (.gone [])), ⟨hc.rel hz hf hst _, ?_⟩, hf, ?_, ?_, ?_, ?_⟩
  · intro j
    show LRel _ (upd s.hs op.handle (.gone ()) j) (upd sp.hs op.handle (.gone []) j)
    unfold upd
    by_cases hj : j = op.handle
    · rw [if_pos hj, if_pos hj]; trivial
    · rw [if_neg hj, if_neg hj]
      exact (h.hs j).nonfarm (sq := specOf p st _) hf (by show _ = p.n; rw [g2, h.ring.n]) (by show _ = p.mm; rw [g3, h.ring.mm])
  · show p.n = _; rw [g2, h.ring.n]
  · show p.mm = _; rw [g3, h.ring.mm]
  · show p.gflags = _; rw [g1, h.ring.gf]
  · show p.app.length = _; rw [← hz.app, g4, h.ring.app_len]

/-- Replacing the recorded counters by equivalent ones. -/
theorem RingRel.restat {r : Ring} {sp : Spec} (h : RingRel r sp) {st : SStat} (hst : r.stat = st.toStat) : RingRel r { sp with st := st } :=
  ⟨h.rep, h.ble, h.fle, h.n, h.mm, h.gf, h.app, h.app_len, hst, h.farm⟩

/-- Two systems, not farms, whose rings have the same sizes, mode, app data and unread messages and
whose handles, `c` excepted, are the same: calls on the other handles cannot tell them apart. -/
theorem same_use {s t : Sys} {sp sq : Spec} (h : Rel s sp) (h' : Rel t sq) (hnf : sp.farm = false) {c : Nat}
    (hhs : ∀ k, k ≠ c → s.hs k = t.hs k) (hn : s.ring.n = t.ring.n) (hmm : s.ring.mm = t.ring.mm) (hg : s.ring.gflags = t.ring.gflags)
    (ha : s.ring.app = t.ring.app) (hu : s.ring.unreadMsgs = t.ring.unreadMsgs) (more : List Op)
    (hwf : ∀ op ∈ more, op.WF s.ring.app.length) (hne : ∀ op ∈ more, op.handle ≠ c) :
    ∃ s' t' o1 o2, s.run more = .ok (s', o1) ∧ t.run more = .ok (t', o2) ∧ o1.map Out.noCounters = o2.map Out.noCounters ∧
      s'.ring.unreadMsgs = t'.ring.unreadMsgs ∧ s'.ring.app = t'.ring.app ∧ (s.ring.stat = t.ring.stat → o1 = o2) := by
  have e1 : sp.cap = sq.cap := by rw [← h.ring.n, ← h'.ring.n, hn]
  have e2 : sp.maxm = sq.maxm := by rw [← h.ring.mm, ← h'.ring.mm, hmm]
  have e3 : sp.gflags = sq.gflags := by rw [← h.ring.gf, ← h'.ring.gf, hg]
  have e4 : sp.app = sq.app := by rw [← h.ring.app, ← h'.ring.app, ha]
  have e5 : sp.unread = sq.unread := by rw [← h.ring.unreadMsgs, ← h'.ring.unreadMsgs, hu]
  have hnf' : sq.farm = false := by unfold Spec.farm; rw [← e3]; exact hnf
  -- the same handles on the specification side
  have main : ∀ st : SStat, t.ring.stat = st.toStat → ∃ s' t' o1 o2, s.run more = .ok (s', o1) ∧ t.run more = .ok (t', o2) ∧
      o1.map Out.noCounters = o2.map Out.noCounters ∧ s'.ring.unreadMsgs = t'.ring.unreadMsgs ∧ s'.ring.app = t'.ring.app ∧
      (sp.st = st → o1 = o2) := by
    intro st hst
    have hr := h'.ring.restat hst
    have hq : Rel t { sq with st := st, hs := fun j => if j = c then sq.hs j else sp.hs j } := by
      refine ⟨⟨hr.rep, hr.ble, hr.fle, hr.n, hr.mm, hr.gf, hr.app, hr.app_len, hr.stat, hr.farm⟩, ?_⟩
      intro j
      dsimp only
      by_cases hj : j = c
      · rw [if_pos hj]
        exact LRel.nonfarm (sp := sq) (sq := { sq with st := st, hs := _ }) hnf' rfl rfl (h'.hs j)
      · rw [if_neg hj, ← hhs j hj]
        exact LRel.nonfarm (sp := sp) (sq := { sq with st := st, hs := _ }) hnf' e1 e2 (h.hs j)
    have hal : Alike c sp { sq with st := st, hs := fun j => if j = c then sq.hs j else sp.hs j } :=
      ⟨⟨e1, e2, e3, hnf, e4, e5, h.ring.fle, h'.ring.fle⟩, fun j hj => by dsimp only; rw [if_neg hj]⟩
    obtain ⟨y1, y2, y3⟩ := hal.run more hne
    obtain ⟨s', r1, r2⟩ := run_refine more h (by rw [← h.ring.app]; exact hwf) (fun e => by rw [hnf] at e; cases e)
    obtain ⟨t', q1, q2⟩ := run_refine more hq (by show ∀ op ∈ more, op.WF sq.app.length; rw [← e4, ← h.ring.app]; exact hwf)
      (fun e => by have : sq.farm = true := e; rw [hnf'] at this; cases this)
    exact ⟨s', t', _, _, r1, q1, y1, by rw [r2.ring.unreadMsgs, q2.ring.unreadMsgs, y2.unread],
      by rw [r2.ring.app, q2.ring.app, y2.app], y3⟩
  by_cases hst : s.ring.stat = t.ring.stat
  · obtain ⟨s', t', o1, o2, a1, a2, a3, a4, a5, a6⟩ := main sp.st (by rw [← hst]; exact h.ring.stat)
    exact ⟨s', t', o1, o2, a1, a2, a3, a4, a5, fun _ => a6 rfl⟩
  · obtain ⟨s', t', o1, o2, a1, a2, a3, a4, a5, _⟩ := main sq.st h'.ring.stat
    exact ⟨s', t', o1, o2, a1, a2, a3, a4, a5, fun e => absurd e hst⟩

end Shr
