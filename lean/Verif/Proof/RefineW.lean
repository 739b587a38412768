import Verif.Proof.Read
import Verif.Proof.Bits
import Verif.Spec.Machine
/-! # Refinement, part 1: the ring itself and unbuffered writes -/
namespace Shr

/-- The counters as stored in the ring: modulo 2^64; the fields filled in by `shr_stat` are zero. -/
def SStat.toStat (s : SStat) : Stat :=
  { start := s.start, bw := s.bw % W, br := s.br % W, mw := s.mw % W, mr := s.mr % W,
    md := s.md % W, bd := s.bd % W }

/-- The ring memory represents the specification state (handles aside). -/
structure RingRel (r : Ring) (sp : Spec) : Prop where
  rep : Rep r sp.base (sp.first - sp.base) sp.retained
  ble : sp.base ≤ sp.first
  fle : sp.first ≤ sp.log.length
  n : r.n = sp.cap
  mm : r.mm = sp.maxm
  gf : r.gflags = sp.gflags
  app : r.app = sp.app
  app_len : r.app_len = sp.app.length
  stat : r.stat = sp.st.toStat
  farm : sp.farm = true → sp.first = sp.base ∧ sp.drop = true ∧ sp.log.length < W

theorem RingRel.unread_eq {r : Ring} {sp : Spec} (h : RingRel r sp) :
    sp.retained.drop (sp.first - sp.base) = sp.unread := by
  unfold Spec.retained Spec.unread
  rw [List.drop_drop]
  congr 1
  have := h.ble; omega

theorem RingRel.cview {r : Ring} {sp : Spec} (h : RingRel r sp) : CView r sp.first sp.unread := by
  have := h.rep.cview
  rw [h.unread_eq] at this
  have e : sp.base + (sp.first - sp.base) = sp.first := by have := h.ble; omega
  rwa [e] at this

theorem wadd_mod' (a b : Nat) : wadd (a % W) b = (a + b) % W := wadd_mod a b

theorem evictCount_zero_of_fits {cap maxm : Nat} {new l : List Msg} (h : Fits cap maxm l new) :
    evictCount cap maxm new l = 0 := by
  have := evictCount_le_of_fits (j := 0) (l := l) (new := new) (cap := cap) (maxm := maxm) (by simpa using h)
  omega

@[simp] theorem commit_log (sp : Spec) (who : Nat) (new : List Msg) (c : Bool) :
    (sp.commit who new c).log = sp.log ++ new := by
  simp [Spec.commit, Spec.log, Function.comp_def]

/-- `retained` and `unread` after a commit. -/
theorem commit_retained (sp : Spec) (who : Nat) (new : List Msg) (c : Bool) (h : sp.base ≤ sp.log.length) :
    (sp.commit who new c).retained =
      sp.retained.drop (evictCount sp.cap sp.maxm new sp.retained) ++ new := by
  have hk := evictCount_le_length sp.cap sp.maxm new sp.retained
  have : (sp.commit who new c).base = sp.base + evictCount sp.cap sp.maxm new sp.retained := rfl
  unfold Spec.retained at *
  rw [commit_log, this, List.drop_append_of_le_length (by simp at hk; omega), List.drop_drop]

theorem commit_unread (sp : Spec) (who : Nat) (new : List Msg) (c : Bool) (h : sp.first ≤ sp.log.length) :
    (sp.commit who new c).unread =
      sp.unread.drop (evictCount sp.cap sp.maxm new sp.unread) ++ new := by
  have hk := evictCount_le_length sp.cap sp.maxm new sp.unread
  have : (sp.commit who new c).first = sp.first + evictCount sp.cap sp.maxm new sp.unread := rfl
  unfold Spec.unread at *
  rw [commit_log, this, List.drop_append_of_le_length (by simp at hk; omega), List.drop_drop]

/-- Evicting from the retained messages never reaches beyond the dropped ones. -/
theorem evict_retained_le {r : Ring} {sp : Spec} (h : RingRel r sp) {new : List Msg}
    (hnb : bytesOf new ≤ sp.cap) (hnm : new.length ≤ sp.maxm) :
    sp.base + evictCount sp.cap sp.maxm new sp.retained ≤
      sp.first + evictCount sp.cap sp.maxm new sp.unread := by
  have hf := evictCount_fits hnb hnm sp.unread
  rw [← h.unread_eq, List.drop_drop] at hf
  have := evictCount_le_of_fits hf
  rw [h.unread_eq] at this
  have := h.ble
  omega

/-- The state in between: unread messages dropped, new ones not yet stored. -/
theorem RingRel.commit_of {r r' : Ring} {sp : Spec} {who : Nat} {new : List Msg} {counted : Bool}
    (h : RingRel r sp) (hl : Legal sp.cap sp.maxm new)
    (hlog : sp.farm = true → (sp.log ++ new).length < W)
    (hrep : Rep r' (sp.base + evictCount sp.cap sp.maxm new sp.retained)
      (sp.first + evictCount sp.cap sp.maxm new sp.unread - (sp.base + evictCount sp.cap sp.maxm new sp.retained))
      (sp.retained.drop (evictCount sp.cap sp.maxm new sp.retained) ++ new))
    (hn : r'.n = r.n) (hmm : r'.mm = r.mm) (hgf : r'.gflags = r.gflags) (happ : r'.app = r.app)
    (hal : r'.app_len = r.app_len)
    (hst : r'.stat = (sp.commit who new counted).st.toStat) :
    RingRel r' (sp.commit who new counted) := by
  obtain ⟨_, _, hnb, hnm⟩ := hl
  have hble := h.ble; have hfle := h.fle
  have hev := evict_retained_le h hnb hnm
  have hul := evictCount_le_length sp.cap sp.maxm new sp.unread
  have hulen : sp.unread.length = sp.log.length - sp.first := by simp [Spec.unread]
  refine ⟨?_, ?_, ?_, hn.trans h.n, hmm.trans h.mm, hgf.trans h.gf, happ.trans h.app,
    hal.trans h.app_len, hst, ?_⟩
  · rw [commit_retained _ _ _ _ (by omega)]
    exact hrep
  · exact hev
  · rw [commit_log]
    show sp.first + evictCount sp.cap sp.maxm new sp.unread ≤ _
    simp; omega
  · intro hf
    have hf' : sp.farm = true := hf
    obtain ⟨h1, h2, h3⟩ := h.farm hf'
    refine ⟨?_, h2, by rw [commit_log]; exact hlog hf'⟩
    show sp.first + _ = sp.base + _
    have : sp.unread = sp.retained := by unfold Spec.unread Spec.retained; rw [h1]
    rw [this, h1]

/-- At every crash point of a write that does not drop, a consuming reader sees the old unread
messages, or these followed by all the new ones; and the old ones are where they were in `r0`. -/
def CrashOk (r0 : Ring) (sp : Spec) (new : List Msg) (s : Ring) : Prop :=
  Fits sp.cap sp.maxm sp.unread new ∨ sp.drop = false →
    (CView s sp.first sp.unread ∨ CView s sp.first (sp.unread ++ new)) ∧ Stay r0 s sp.first sp.unread

def WrOut.res : WrOut → Spec.WRes
  | .ret rc _ => .ret rc
  | .wait => .wait

theorem CView.congr {r s : Ring} {gr : Nat} {U : List Msg} (h : CView r gr U)
    (hn : s.n = r.n) (hmm : s.mm = r.mm) (hd : s.d = r.d) (hmv : s.mv = r.mv) (hm : s.m = r.m)
    (hr : s.r = r.r) (hu : s.u < W) : CView s gr U := by
  obtain ⟨⟨p0, hC⟩, a, b, c⟩ := h
  exact ⟨⟨p0, hC.congr hn hmm hd hmv⟩, hu, hm.trans b, by rw [hr, hmm]; exact c⟩

/-- The wake and the counters after a commit. -/
theorem writevFinish_spec {r0 : Ring} {sp0 : Spec} {new : List Msg} {r : Ring} {sp : Spec} {env : Env}
    (hst : r.stat = sp.st.toStat) (hgf : r.gflags = sp.gflags)
    (hcr : ∀ st : Stat, CrashOk r0 sp0 new { r with stat := st }) :
    Ok (writevFinish (bytesOf new) new.length env) r (CrashOk r0 sp0 new) (fun o r' =>
      o = .ret (if env.wakeOk = false then -1
        else if sp.gflags.has SHR_SYNC ∧ env.syncOk = false then -1
        else (bytesOf new : Int)) true ∧
      r' = { r with stat := ({ sp.st with
        bw := if env.wakeOk then sp.st.bw + bytesOf new else sp.st.bw
        mw := if env.wakeOk then sp.st.mw + new.length else sp.st.mw } : SStat).toStat } ∧
      CrashOk r0 sp0 new r') := by
  unfold writevFinish
  cases hw : env.wakeOk
  · simp only [if_true]
    apply Ok.pure
    refine ⟨rfl, ?_, ?_⟩
    · simp only [Bool.false_eq_true, if_false, ← hst]
    · exact hcr r.stat
  · simp only [Bool.true_eq_false, if_false, if_true]
    refine Ok.store_bind (hcr r.stat) ?_
    refine Ok.store_bind (hcr _) ?_
    apply Ok.get_bind
    dsimp only
    have key : ({ { r.stat with bw := wadd r.stat.bw (bytesOf new) } with
        mw := wadd r.stat.mw new.length } : Stat) =
        ({ sp.st with bw := sp.st.bw + bytesOf new, mw := sp.st.mw + new.length } : SStat).toStat := by
      rw [hst]; simp [SStat.toStat, wadd_mod]
    by_cases hs : r.gflags.has SHR_SYNC = true ∧ env.syncOk = false
    · rw [if_pos hs, if_pos (by rw [← hgf]; exact hs)]
      apply Ok.pure
      exact ⟨rfl, by rw [← key], hcr _⟩
    · rw [if_neg hs, if_neg (by rw [← hgf]; exact hs)]
      apply Ok.pure
      exact ⟨rfl, by rw [← key], hcr _⟩

/-- An unbuffered write attempt behaves as specified. -/
theorem writevAttempt_spec {r : Ring} {sp : Spec} (h : RingRel r sp) {new : List Msg}
    (hl : Legal sp.cap sp.maxm new) (who : Nat) (flags : Flags) (env : Env)
    (hlog0 : sp.farm = true →
      (sp.tryWrite who (flags.has SHR_NONBLOCK) new env).1.log.length < W) :
    Ok (writevAttempt flags sp.maxm new (bytesOf new) env) r (CrashOk r sp new) (fun o r' =>
      o.res = (sp.tryWrite who (flags.has SHR_NONBLOCK) new env).2 ∧
      RingRel r' (sp.tryWrite who (flags.has SHR_NONBLOCK) new env).1 ∧ CrashOk r sp new r' ∧
      (∀ rc w, o = .ret rc w → (w = true ↔ (sp.tryWrite who (flags.has SHR_NONBLOCK) new env).1.tlog ≠ sp.tlog))) := by
  obtain ⟨hnn, hne, hnb, hnm⟩ := hl
  have hl' : Legal sp.cap sp.maxm new := ⟨hnn, hne, hnb, hnm⟩
  obtain ⟨p0, hg⟩ := h.rep.geo
  have hC := hg.toCore
  have nbd := hC.nbd; have mmbd := hC.mmbd; have tot := hC.tot; have cnt := hC.cnt
  rw [SSIZE_MAX_val] at nbd mmbd
  have hu := h.rep.u; have hm := h.rep.m
  rw [h.unread_eq] at hu
  have hm' : r.m = sp.unread.length := by rw [hm, ← h.unread_eq]; simp
  have hule : bytesOf sp.unread ≤ r.n := by
    rw [← h.unread_eq]; have := bytesOf_drop_le sp.retained (sp.first - sp.base); omega
  have hmle : r.m ≤ r.mm := by omega
  have hcv := h.cview
  have hn := h.n; have hmm := h.mm
  have hcrash0 : CrashOk r sp new r := fun _ => ⟨.inl hcv, Stay.refl r _ _⟩
  have hlog1 : env.lockOk = true → sp.farm = true → (sp.log ++ new).length < W := by
    intro hlk hf
    have := hlog0 hf
    unfold Spec.tryWrite at this
    rw [if_neg (by simp [hlk]), if_pos (Or.inr (h.farm hf).2.1)] at this
    rwa [commit_log] at this
  unfold writevAttempt Spec.tryWrite
  cases hlk : env.lockOk
  · simp only [if_true]
    exact Ok.pure ⟨rfl, h, hcrash0, by rintro rc w ⟨⟩; simp⟩
  have hlog := hlog1 hlk
  simp only [Bool.true_eq_false, if_false]
  apply Ok.get_bind
  rw [wsub_eq (a := r.n) (by omega) (by rw [W_val]; omega),
    wsub_eq (a := r.mm) (by omega) (by rw [W_val]; omega)]
  have hiff : (r.n - r.u ≥ bytesOf new ∧ r.mm - r.m ≥ new.length) ↔
      Fits sp.cap sp.maxm sp.unread new := by
    unfold Fits; omega
  have hev := evict_retained_le h hnb hnm
  have hne_log : ∀ c, (sp.commit who new c).tlog ≠ sp.tlog := by
    intro c
    show sp.tlog ++ new.map (fun m => (who, m)) ≠ sp.tlog
    intro e
    have := congrArg List.length e
    simp at this
    exact hnn this
  by_cases hfit : Fits sp.cap sp.maxm sp.unread new
  · rw [if_pos (hiff.mpr hfit), if_pos (Or.inl hfit)]
    have hd0 : evictCount sp.cap sp.maxm new sp.unread = 0 := evictCount_zero_of_fits hfit
    have hfit' : Fits r.n r.mm (sp.retained.drop (sp.first - sp.base)) new := by
      rw [h.unread_eq, hn, hmm]; exact hfit
    have hcs := writevCommit_spec h.rep (by rw [hn, hmm]; exact hl') hfit'
    rw [← hmm]
    apply Ok.bind
    refine hcs.mono ?_ ?_
    · intro s hs _
      rw [h.unread_eq] at hs
      have e : sp.base + (sp.first - sp.base) = sp.first := by have := h.ble; omega
      rw [e] at hs
      exact ⟨.inl hs.1, hs.2⟩
    rintro _ r1 ⟨hstay1, ⟨mv, d, i, hr1⟩, hrep1⟩
    have hstay1 : Stay r r1 sp.first sp.unread := by
      rw [h.unread_eq] at hstay1
      have e : sp.base + (sp.first - sp.base) = sp.first := by have := h.ble; omega
      rwa [e] at hstay1
    rw [hn, hmm] at hrep1
    have e1 : sp.first - sp.base - evictCount sp.cap sp.maxm new sp.retained =
        sp.first + evictCount sp.cap sp.maxm new sp.unread -
          (sp.base + evictCount sp.cap sp.maxm new sp.retained) := by omega
    rw [e1] at hrep1
    have hrr : ∀ counted st, st = (sp.commit who new counted).st.toStat →
        RingRel { r1 with stat := st } (sp.commit who new counted) := by
      intro counted st hst
      refine h.commit_of hl' hlog (r' := { r1 with stat := st }) ?_ ?_ ?_ ?_ ?_ ?_ hst
      · obtain ⟨⟨p1, g1⟩, a2, a3, a4, a5, a6, a7, a8⟩ := hrep1
        exact ⟨⟨p1, g1.congr rfl rfl rfl rfl rfl⟩, a2, a3, a4, a5, a6, a7, a8⟩
      · show r1.n = r.n; rw [hr1]
      · show r1.mm = r.mm; rw [hr1]
      · show r1.gflags = r.gflags; rw [hr1]
      · show r1.app = r.app; rw [hr1]
      · show r1.app_len = r.app_len; rw [hr1]
    have hst1 : r1.stat = (sp.commit who new false).st.toStat := by
      have : r1.stat = r.stat := by rw [hr1]
      rw [this, h.stat]
      simp [Spec.commit, hd0, SStat.toStat]
    have hr1' := hrr false r1.stat hst1
    have hcv1 : CView r1 sp.first (sp.unread ++ new) := by
      have := hr1'.cview
      rw [commit_unread _ _ _ _ h.fle, hd0] at this
      have e : (sp.commit who new false).first = sp.first := by
        show sp.first + evictCount sp.cap sp.maxm new sp.unread = _; omega
      rw [e] at this
      exact this
    refine (writevFinish_spec (r0 := r) (sp0 := sp) (sp := sp.commit who new false) (env := env) hst1
      (by rw [hr1'.gf]) ?_).mono (fun _ h => h) ?_
    · intro st _
      exact ⟨.inr (hcv1.congr rfl rfl rfl rfl rfl rfl hcv1.ult), hstay1.congr rfl rfl rfl rfl⟩
    · rintro o r2 ⟨rfl, hr2, hcr⟩
      refine ⟨?_, ?_, hcr, ?_⟩
      · have : (sp.commit who new false).gflags = sp.gflags := rfl
        rw [this]
        show Spec.WRes.ret _ = _
        split
        · rfl
        · split <;> rfl
      · rw [hr2]
        have hb : (sp.commit who new env.wakeOk).st.toStat =
          ({ (sp.commit who new false).st with
            bw := if env.wakeOk then (sp.commit who new false).st.bw + bytesOf new else (sp.commit who new false).st.bw
            mw := if env.wakeOk then (sp.commit who new false).st.mw + new.length else (sp.commit who new false).st.mw } : SStat).toStat := by
          cases env.wakeOk <;> simp [Spec.commit]
        exact hrr env.wakeOk _ hb.symm
      · rintro rc w ⟨⟩
        simp [hne_log]
  · rw [if_neg (fun x => hfit (hiff.mp x))]
    by_cases hdr : sp.drop = true
    · have hdr' : r.gflags.has SHR_DROP = true := by rw [h.gf]; exact hdr
      rw [if_pos hdr', if_pos (Or.inr hdr)]
      have hcrash : ∀ s, CrashOk r sp new s := fun s hf => hf.elim (fun h => absurd h hfit) (fun h => by rw [hdr] at h; cases h)
      have hno : ¬ Fits r.n r.mm (sp.retained.drop (sp.first - sp.base)) new := by
        rw [h.unread_eq, hn, hmm]; exact hfit
      have hds := drop_unread_spec h.rep hdr' (by rw [hn]; exact hnb) (by rw [hmm]; exact hnm) hno
        (CrashOk r sp new) (fun s _ _ _ => hcrash s)
      rw [h.unread_eq, hn] at hds
      rw [hmm] at hds
      apply Ok.bind
      refine hds.mono (fun _ h => h) ?_
      rintro _ rd rfl
      generalize hk : evictCount sp.cap sp.maxm new sp.unread = k
      generalize hz : bytesOf (sp.unread.take k) = z
      have hkle : k ≤ sp.unread.length := by rw [← hk]; exact evictCount_le_length _ _ _ _
      have hrepd : Rep (dropped r k z sp.base (sp.first - sp.base)) sp.base (sp.first - sp.base + k)
          sp.retained := by
        refine h.rep.dropped ?_ ?_
        · have : sp.unread.length = sp.retained.length - (sp.first - sp.base) := by
            rw [← h.unread_eq]; simp
          omega
        · rw [h.unread_eq]; exact hz.symm
      have hfitd : Fits sp.cap sp.maxm (sp.retained.drop (sp.first - sp.base + k)) new := by
        rw [← List.drop_drop, h.unread_eq, ← hk]
        exact evictCount_fits hnb hnm _
      have hcs := writevCommit_spec hrepd (new := new) (by show Legal r.n r.mm new; rw [hn, hmm]; exact hl')
        (by show Fits r.n r.mm _ _; rw [hn, hmm]; exact hfitd)
      have ednm : (dropped r k z sp.base (sp.first - sp.base)).mm = sp.maxm := hmm
      have ednn : (dropped r k z sp.base (sp.first - sp.base)).n = sp.cap := hn
      rw [ednm, ednn] at hcs
      apply Ok.bind
      refine hcs.mono (fun s _ => hcrash s) ?_
      rintro _ r1 ⟨-, ⟨mv, d, i, hr1⟩, hrep1⟩
      have e1 : sp.first - sp.base + k - evictCount sp.cap sp.maxm new sp.retained =
          sp.first + evictCount sp.cap sp.maxm new sp.unread -
            (sp.base + evictCount sp.cap sp.maxm new sp.retained) := by
        have := h.ble; omega
      rw [e1] at hrep1
      have hst1 : r1.stat = (sp.commit who new false).st.toStat := by
        have : r1.stat = { r.stat with bd := wadd r.stat.bd z, md := wadd r.stat.md k } := by rw [hr1]; rfl
        rw [this, h.stat]
        simp [Spec.commit, hk, hz, SStat.toStat, wadd_mod]
      have hrr : ∀ counted st, st = (sp.commit who new counted).st.toStat →
          RingRel { r1 with stat := st } (sp.commit who new counted) := by
        intro counted st hst
        refine h.commit_of hl' hlog (r' := { r1 with stat := st }) ?_ ?_ ?_ ?_ ?_ ?_ hst
        · obtain ⟨⟨p1, g1⟩, a2, a3, a4, a5, a6, a7, a8⟩ := hrep1
          exact ⟨⟨p1, g1.congr rfl rfl rfl rfl rfl⟩, a2, a3, a4, a5, a6, a7, a8⟩
        · show r1.n = r.n; rw [hr1]; exact hn.symm
        · show r1.mm = r.mm; rw [hr1]; exact hmm.symm
        · show r1.gflags = r.gflags; rw [hr1]; rfl
        · show r1.app = r.app; rw [hr1]; rfl
        · show r1.app_len = r.app_len; rw [hr1]; rfl
      have hr1' := hrr false r1.stat hst1
      refine (writevFinish_spec (r0 := r) (sp0 := sp) (sp := sp.commit who new false) (env := env) hst1
        (by rw [hr1'.gf]) (fun _ => hcrash _)).mono (fun _ h => h) ?_
      rintro o r2 ⟨rfl, hr2, hcr⟩
      refine ⟨?_, ?_, hcr, ?_⟩
      · have : (sp.commit who new false).gflags = sp.gflags := rfl
        rw [this]
        show Spec.WRes.ret _ = _
        split
        · rfl
        · split <;> rfl
      · rw [hr2]
        have hb : (sp.commit who new env.wakeOk).st.toStat =
          ({ (sp.commit who new false).st with
            bw := if env.wakeOk then (sp.commit who new false).st.bw + bytesOf new else (sp.commit who new false).st.bw
            mw := if env.wakeOk then (sp.commit who new false).st.mw + new.length else (sp.commit who new false).st.mw } : SStat).toStat := by
          cases env.wakeOk <;> simp [Spec.commit]
        exact hrr env.wakeOk _ hb.symm
      · rintro rc w ⟨⟩
        simp [hne_log]
    · have hdr' : ¬ r.gflags.has SHR_DROP = true := by rw [h.gf]; exact hdr
      have hno2 : ¬ (Fits sp.cap sp.maxm sp.unread new ∨ sp.drop = true) := by
        rintro (h | h)
        · exact hfit h
        · exact hdr h
      rw [if_neg hdr', if_neg hno2]
      by_cases hnbk : flags.has SHR_NONBLOCK = true
      · simp only [if_pos hnbk]
        exact Ok.pure ⟨rfl, h, hcrash0, by rintro rc w ⟨⟩; simp⟩
      · simp only [if_neg hnbk]
        cases env.waitRc with
        | none => exact Ok.pure ⟨rfl, h, hcrash0, by rintro rc w ⟨⟩⟩
        | some sc =>
          exact Ok.pure ⟨rfl, h, hcrash0, by rintro rc w ⟨⟩; simp⟩

end Shr
