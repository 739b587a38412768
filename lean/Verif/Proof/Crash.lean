import Verif.Proof.Stores
/-! # What readers see after a crash -/
namespace Shr
open M

/-- Result of a read on a ring (not a farm) on which `U` is unread, and the number of messages it consumes. -/
def qread (U : List Msg) (flags : Flags) (buf : List Byte) (niov : Nat) (env : Env) : RdOut × Nat :=
  if buf.length = 0 ∨ niov = 0 ∨ env.lockOk = false then (.ret (-1) [] buf none false, 0)
  else if U = [] then
    if flags.has SHR_NONBLOCK then (.ret 0 [] buf (some false) false, 0)
    else match env.waitRc with
      | some sc => (.ret sc.rc [] buf none false, 0)
      | none => (.wait, 0)
  else
    let t := takeCount U (min buf.length SSIZE_MAX) niov
    let V := U.take t
    (.ret (if t > 0 then (bytesOf V : Int) else -2) (layout 0 V) (put buf 0 V.flatten)
      (some (decide (U.drop t ≠ []))) (decide (bytesOf V > 0)), t)

theorem CView.rview {r : Ring} {gr : Nat} {U : List Msg} (h : CView r gr U) (hf : r.gflags.has SHR_FARM = false) (c : RCur) :
    RView r c gr U :=
  ⟨h.core, h.ult, (fun e => by rw [hf] at e; cases e), fun _ => ⟨h.m, h.r⟩⟩

theorem RView.cview {r : Ring} {c : RCur} {gr : Nat} {U : List Msg} (h : RView r c gr U) (hf : r.gflags.has SHR_FARM = false) :
    CView r gr U := ⟨h.core, h.ult, (h.cons hf).1, (h.cons hf).2⟩

theorem readv_view {r : Ring} {gr : Nat} {U : List Msg} (hv : CView r gr U) (hf : r.gflags.has SHR_FARM = false) (h : Handle)
    (hrd : h.flags.has SHR_RDONLY = true) (hwr : (!h.flags.has SHR_WRONLY) = true) (buf : List Byte) (hbl : buf.length < W) (niov : Nat) (env : Env) :
    Ok (shr_readv h buf buf.length niov env) r (fun _ => True) (fun x r' =>
      x = (h, (qread U h.flags buf niov env).1) ∧
      CView r' (gr + (qread U h.flags buf niov env).2) (U.drop (qread U h.flags buf niov env).2) ∧ r'.gflags = r.gflags) := by
  have hS := SSIZE_MAX_val
  unfold shr_readv readvAttempt qread
  apply Ok.bind
  apply Ok.assert_bind hrd
  by_cases hb0 : buf.length = 0
  · rw [if_pos hb0, if_pos (Or.inl hb0)]
    exact Ok.pure (Ok.pure ⟨rfl, hv, rfl⟩)
  rw [if_neg hb0]
  by_cases hn0 : niov = 0
  · rw [if_pos hn0, if_pos (Or.inr (Or.inl hn0))]
    exact Ok.pure (Ok.pure ⟨rfl, hv, rfl⟩)
  rw [if_neg hn0]
  by_cases hlk : env.lockOk = false
  · rw [if_pos hlk, if_pos (Or.inr (Or.inr hlk))]
    exact Ok.pure (Ok.pure ⟨rfl, hv, rfl⟩)
  rw [if_neg hlk]
  have hno : ¬ (buf.length = 0 ∨ niov = 0 ∨ env.lockOk = false) := by
    rintro (h | h | h) <;> contradiction
  rw [if_neg hno]
  apply Ok.get_bind
  have hr := hv.rview hf h.cur
  obtain ⟨hnil, hcons⟩ := next_msg_info_spec hr
  have hlen : (if buf.length > SSIZE_MAX then SSIZE_MAX else buf.length) = min buf.length SSIZE_MAX := by
    split <;> omega
  cases U with
  | nil =>
    refine Ok.lift_bind (hnil rfl) ?_
    dsimp only
    apply Ok.assert_bind hwr
    simp only [if_true]
    by_cases hnbk : h.flags.has SHR_NONBLOCK = true
    · simp only [if_pos hnbk]
      exact Ok.pure (Ok.pure ⟨rfl, hv, rfl⟩)
    · simp only [if_neg hnbk]
      cases env.waitRc with
      | none => exact Ok.pure (Ok.pure ⟨rfl, hv, rfl⟩)
      | some sc => exact Ok.pure (Ok.pure ⟨rfl, hv, rfl⟩)
  | cons b U =>
    obtain ⟨mi, hnm, hinf⟩ := hcons b U rfl
    refine Ok.lift_bind hnm ?_
    simp only [List.cons_ne_nil, if_false]
    unfold readvBody
    apply Ok.bind
    rw [hlen]
    have hrl := readLoop_spec niov (st := ⟨h.cur, buf, 0, min buf.length SSIZE_MAX, 0, []⟩) hr hinf
      (by simp; omega) hbl (by simp; omega) (by
        intro _
        obtain ⟨p0, hC⟩ := hr.core
        rw [hv.r]; exact Nat.mod_lt _ hC.mmpos) (fun _ => True) (fun _ _ => trivial)
    refine hrl.mono (fun _ _ => trivial) ?_
    rintro ⟨st, fl⟩ r1 ⟨e1, e2, e3⟩
    dsimp only at e1 e2 e3
    generalize ht : takeCount (b :: U) (min buf.length SSIZE_MAX) niov = t at *
    have htle : t ≤ (b :: U).length := by rw [← ht]; exact takeCount_le_length _ _ _
    have hst : st = ⟨h.cur, put buf 0 ((b :: U).take t).flatten,
        bytesOf ((b :: U).take t), min buf.length SSIZE_MAX - bytesOf ((b :: U).take t),
        bytesOf ((b :: U).take t), layout 0 ((b :: U).take t)⟩ := by
      rw [e1]
      simp only [RdSt.deliver, advanced, hf, Bool.false_eq_true, if_false, Nat.zero_add, List.nil_append]
    subst hst
    refine Ok.store_bind trivial ?_
    refine Ok.store_bind trivial ?_
    apply Ok.assert_bind hwr
    apply Ok.pure
    apply Ok.pure
    have hll : (layout 0 ((b :: U).take t)).length = t := by
      rw [layout_length, List.length_take, Nat.min_eq_left htle]
    rw [hll, e2]
    refine ⟨rfl, ?_, ?_⟩
    · have := (hr.consumed htle (bytesOf ((b :: U).take t))).cview (by rw [consumed_gflags]; exact hf)
      rw [← e3] at this
      exact this.congr rfl rfl rfl rfl rfl rfl this.ult
    · show r1.gflags = r.gflags
      rw [e3, consumed_gflags]

/-- No live handle is open for both reading and writing. -/
def NoBoth (hs : Nat → Life Handle Unit) : Prop :=
  ∀ k h, hs k = .live h → h.flags.has SHR_RDONLY = true → (!h.flags.has SHR_WRONLY) = true

theorem NoBoth.same {hs : Nat → Life Handle Unit} {k : Nat} {h : Handle} (nb : NoBoth hs) (e : hs k = .live h) :
    NoBoth (upd hs k (.live h)) := by
  have : upd hs k (.live h) = hs := by funext j; unfold upd; split <;> simp_all
  rwa [this]

/-- Two systems in which readers see the same. -/
structure SameView (s t : Sys) : Prop where
  hs : s.hs = t.hs
  nb : NoBoth s.hs
  sf : s.ring.gflags.has SHR_FARM = false
  tf : t.ring.gflags.has SHR_FARM = false
  view : ∃ g g' U, CView s.ring g U ∧ CView t.ring g' U

/-- All calls are reads. -/
def ReadsOnly (ops : List Op) : Prop := ∀ op ∈ ops, ∃ k buf niov env, op = .readv k buf niov env ∧ buf.length < W

theorem SameView.step {s t : Sys} (h : SameView s t) (k : Nat) (buf : List Byte) (niov : Nat) (env : Env) (hb : buf.length < W) :
    ∃ s' t' o, s.step (.readv k buf niov env) = .ok (s', o) ∧ t.step (.readv k buf niov env) = .ok (t', o) ∧ SameView s' t' := by
  obtain ⟨g, g', U, v1, v2⟩ := h.view
  unfold Sys.step
  dsimp only
  rw [← h.hs]
  cases e : s.hs k with
  | live hd =>
    dsimp only
    by_cases hrd : hd.flags.has SHR_RDONLY = false
    · rw [if_pos hrd, if_pos hrd]; exact ⟨s, t, _, rfl, rfl, h⟩
    · rw [if_neg hrd, if_neg hrd]
      have hrd' : hd.flags.has SHR_RDONLY = true := by simpa using hrd
      obtain ⟨x, r1, h1, h2, h3, h4⟩ := (readv_view v1 h.sf hd hrd' (h.nb k hd e hrd') buf hb niov env).res
      obtain ⟨y, r2, i1, i2, i3, i4⟩ := (readv_view v2 h.tf hd hrd' (h.nb k hd e hrd') buf hb niov env).res
      have e1 : exec (shr_readv hd buf buf.length niov env) s.ring = .ok (x, r1) := by unfold exec; rw [h1]
      have e2 : exec (shr_readv hd buf buf.length niov env) t.ring = .ok (y, r2) := by unfold exec; rw [i1]
      rw [e1, e2, h2, i2]
      exact ⟨_, _, _, rfl, rfl, rfl, h.nb.same e, by show r1.gflags.has _ = _; rw [h4]; exact h.sf,
        by show r2.gflags.has _ = _; rw [i4]; exact h.tf, _, _, _, h3, i3⟩
  | never => exact ⟨s, t, _, rfl, rfl, h⟩
  | gone b => exact ⟨s, t, _, rfl, rfl, h⟩

theorem SameView.run : ∀ (reads : List Op) {s t : Sys}, SameView s t → ReadsOnly reads →
    ∃ s' t' outs, s.run reads = .ok (s', outs) ∧ t.run reads = .ok (t', outs) ∧ SameView s' t' := by
  intro reads
  induction reads with
  | nil => intro s t h _; exact ⟨s, t, [], rfl, rfl, h⟩
  | cons op reads ih =>
    intro s t h hr
    obtain ⟨k, buf, niov, env, rfl, hb⟩ := hr op (by simp)
    obtain ⟨s1, t1, o, h1, h2, h3⟩ := h.step k buf niov env hb
    obtain ⟨s2, t2, outs, i1, i2, i3⟩ := ih h3 (fun op hm => hr op (by simp [hm]))
    refine ⟨s2, t2, o :: outs, ?_, ?_, i3⟩
    · unfold Sys.run; rw [h1]; dsimp only; rw [i1]
    · unfold Sys.run; rw [h2]; dsimp only; rw [i2]

theorem Ok.points {α : Type} {x : M Ring α} {r : Ring} {T : Ring → Prop} {Q : α → Ring → Prop} (h : Ok x r T Q)
    (hQ : ∀ a s, Q a s → T s) : ∀ p ∈ (x r).points, T p := by
  obtain ⟨a, s, h1, h2⟩ := h.res
  intro p hp
  unfold Run.points at hp
  rcases List.mem_append.mp hp with hp | hp
  · exact h.tr p hp
  · have e : x r = ⟨(x r).trace, .ok a s⟩ := by rw [← h1]
    rw [e] at hp
    simp [Run.final] at hp
    subst hp; exact hQ _ _ h2

/-- What a reader finds after a crash: the old unread messages followed by one of `Xs`; the old ones are where
they were in `r0`. -/
def Seen (r0 : Ring) (sp : Spec) (Xs : List (List Msg)) (p : Ring) : Prop :=
  (∃ X ∈ Xs, CView p sp.first (sp.unread ++ X)) ∧ Stay r0 p sp.first sp.unread

theorem CrashOk.seen {r0 : Ring} {sp : Spec} {new : List Msg} {p : Ring} (h : CrashOk r0 sp new p)
    (hd : Fits sp.cap sp.maxm sp.unread new ∨ sp.drop = false) {Xs : List (List Msg)} (h0 : [] ∈ Xs) (h1 : new ∈ Xs) :
    Seen r0 sp Xs p := by
  obtain ⟨h, hst⟩ := h hd
  refine ⟨?_, hst⟩
  rcases h with h | h
  · exact ⟨[], h0, by rw [List.append_nil]; exact h⟩
  · exact ⟨new, h1, h⟩

theorem RingRel.seen {r : Ring} {sp : Spec} (h : RingRel r sp) {Xs : List (List Msg)} (h0 : [] ∈ Xs) : Seen r sp Xs r :=
  ⟨⟨[], h0, by rw [List.append_nil]; exact h.cview⟩, Stay.refl r _ _⟩

/-- An attempt that put its messages into the ring without dropping. -/
theorem tryWrite_grown {sp : Spec} (hfl : sp.first ≤ sp.log.length) {who : Nat} {nb : Bool} {new : List Msg} {env : Env} {rc : Int}
    (hd : Fits sp.cap sp.maxm sp.unread new ∨ sp.drop = false) (h : (sp.tryWrite who nb new env).2 = .ret rc) (hrc : ¬ rc ≤ 0) :
    (sp.tryWrite who nb new env).1.unread = sp.unread ++ new ∧ (sp.tryWrite who nb new env).1.first = sp.first ∧
    Fits sp.cap sp.maxm sp.unread new := by
  have hf : ∀ {c}, Fits sp.cap sp.maxm sp.unread new → (sp.commit who new c).unread = sp.unread ++ new ∧
      (sp.commit who new c).first = sp.first ∧ Fits sp.cap sp.maxm sp.unread new := by
    intro c hf
    rw [commit_unread _ _ _ _ hfl]
    show _ ∧ sp.first + evictCount sp.cap sp.maxm new sp.unread = _ ∧ _
    rw [evictCount_zero_of_fits hf]
    exact ⟨rfl, rfl, hf⟩
  have key := tryCase sp who nb new env
  generalize sp.tryWrite who nb new env = X at *
  cases key with
  | no rc' h1 _ => dsimp only at h; cases h; omega
  | full => dsimp only at h; cases h; omega
  | wait => cases h
  | done _ h1 _ =>
    refine hf ?_
    rcases h1 with h1 | h1
    · exact h1
    · rcases hd with hd | hd
      · exact hd
      · rw [h1] at hd; cases hd
  | bad _ _ _ => dsimp only at h; cases h; omega

/-- Crash points of an attempt to write. -/
theorem attempt_crash {r : Ring} {sp : Spec} {h : Handle} {sh : SHandle} (hr : RingRel r sp) (hnf : sp.farm = false)
    (hh : HRel sp h sh) {iov : List Msg} (hL : Legal sp.cap sp.maxm iov) (k : Nat) (env : Env) :
    Ok (do let out ← writevAttempt h.flags h.mm iov (bytesOf iov) env; pure (h, out)) r
      (CrashOk r sp iov) (fun _ r' => CrashOk r sp iov r') := by
  apply Ok.bind
  rw [hh.mm, hh.flags]
  refine (writevAttempt_spec hr hL k sh.flags env (fun e => by rw [hnf] at e; cases e)).mono (fun _ h => h) ?_
  rintro o r' ⟨_, _, e3, _⟩
  exact Ok.pure e3

/-- Crash points of flushing the cache. -/
theorem flushCache_crash {r : Ring} {sp : Spec} (hr : RingRel r sp) (hnf : sp.farm = false) {h : Handle} {sh : SHandle}
    (hn : h.n = sp.cap) (hmm : h.mm = sp.maxm) (hc : CRel h.c sh.pend sh.csz sh.cvt)
    (hw : h.flags.getLsbD 14 = true) (hp : Legal sp.cap sp.maxm sh.pend) (hcs : sh.csz ≤ sp.cap) (who : Nat) (env : Env) :
    Ok (flushCache h env) r (CrashOk r sp sh.pend) (fun o r' =>
      o.res = (sp.tryWrite who (h.flags.has SHR_NONBLOCK) sh.pend env).2 ∧
      RingRel r' (sp.tryWrite who (h.flags.has SHR_NONBLOCK) sh.pend env).1 ∧ CrashOk r sp sh.pend r') := by
  unfold flushCache
  refine Ok.lift_bind hc.read ?_
  unfold writevDirect
  have hw' : (h.flags.clear SHR_BUFFERED).has SHR_WRONLY = true := by
    rw [has_WRONLY, clear_BUFFERED _ _ (by decide), hw]; rfl
  have hnb' : (h.flags.clear SHR_BUFFERED).has SHR_NONBLOCK = h.flags.has SHR_NONBLOCK := by
    rw [has_NONBLOCK, has_NONBLOCK, clear_BUFFERED _ _ (by decide)]; simp
  apply Ok.assert_bind hw'
  have hbd := pend_bd hc (by have := hr.cap_le; omega)
  rw [hn, hmm, lenCheck_spec hr.cap_le (fun b hb => ⟨hp.2.1 b hb, hbd b hb⟩), if_pos hp]
  dsimp only
  refine (writevAttempt_spec hr hp who (h.flags.clear SHR_BUFFERED) env (fun e => by rw [hnf] at e; cases e)).mono (fun _ h => h) ?_
  rintro o r' ⟨h1, h2, h3, _⟩
  rw [hnb'] at h1 h2
  exact ⟨h1, h2, h3⟩

theorem bytesOf_append' (a b : List Msg) : bytesOf (a ++ b) = bytesOf a + bytesOf b := by
  unfold bytesOf; rw [List.map_append, List.sum_append]

theorem Fits.left {cap maxm : Nat} {u a b : List Msg} (h : Fits cap maxm u (a ++ b)) : Fits cap maxm u a := by
  obtain ⟨h1, h2⟩ := h
  rw [bytesOf_append'] at h1
  rw [List.length_append] at h2
  exact ⟨by omega, by omega⟩

theorem Fits.right {cap maxm : Nat} {u a b : List Msg} (h : Fits cap maxm u (a ++ b)) : Fits cap maxm (u ++ a) b := by
  obtain ⟨h1, h2⟩ := h
  rw [bytesOf_append'] at h1
  rw [List.length_append] at h2
  exact ⟨by rw [bytesOf_append']; omega, by rw [List.length_append]; omega⟩

/-- Crash points of a write. -/
theorem shr_writev_crash {r : Ring} {sp : Spec} (hr : RingRel r sp) (hnf : sp.farm = false) {h : Handle} {sh : SHandle}
    (hh : HRel sp h sh) (hw : sh.flags.has SHR_WRONLY = true) (k : Nat) {iov : List Msg} (hwf : WriteWF iov)
    (envF env : Env) (hd : Fits sp.cap sp.maxm sp.unread (sh.pend ++ iov) ∨ sp.drop = false) :
    Ok (shr_writev h iov envF env) r (Seen r sp [[], sh.pend, sh.pend ++ iov])
      (fun _ r' => Seen r sp [[], sh.pend, sh.pend ++ iov] r') := by
  have hfl := hh.flags
  have hw' : h.flags.has SHR_WRONLY = true := by rw [hfl]; exact hw
  have h0 : Seen r sp [[], sh.pend, sh.pend ++ iov] r := hr.seen (by simp)
  have hdp : Fits sp.cap sp.maxm sp.unread sh.pend ∨ sp.drop = false := hd.imp Fits.left id
  unfold shr_writev
  apply Ok.assert_bind hw'
  rw [hh.n, hh.mm, lenCheck_wf hr.cap_le hwf]
  by_cases hL : Legal sp.cap sp.maxm iov
  case neg => rw [if_neg hL]; exact Ok.pure h0
  rw [if_pos hL]
  dsimp only
  apply Ok.bind
  -- the direct write of `iov` when nothing is cached
  have direct : sh.pend = [] → Ok (do let out ← writevAttempt h.flags h.mm iov (bytesOf iov) env; pure (h, out)) r
      (Seen r sp [[], sh.pend, sh.pend ++ iov]) (fun _ r' => Seen r sp [[], sh.pend, sh.pend ++ iov] r') := by
    intro hp
    rw [hp] at hd ⊢
    have hs : ∀ p, CrashOk r sp iov p → Seen r sp [[], [], [] ++ iov] p := fun p hp => hp.seen hd (by simp) (by simp)
    exact (attempt_crash hr hnf hh hL k env).mono hs (fun _ => hs)
  unfold cacheLoop
  by_cases hb : sh.flags.has SHR_BUFFERED = false
  · rw [if_pos (by rw [hfl]; exact hb)]
    apply Ok.pure
    exact direct (Classical.byContradiction fun hp => by
      have := (hh.buffered hp).1
      rw [has_BUFFERED] at hb; rw [this] at hb; cases hb)
  rw [if_neg (by rw [hfl]; exact hb)]
  by_cases hf : Spec.cacheFits sh iov
  · rw [if_pos ((cacheFits_iff hh iov).mpr hf)]
    obtain ⟨c', e', hh'⟩ := hh.cacheAll hL.2.1 hf
    refine Ok.lift_bind e' ?_
    apply Ok.pure
    exact Ok.pure h0
  rw [if_neg (fun x => hf ((cacheFits_iff hh iov).mp x))]
  by_cases hp : sh.pend = []
  · rw [if_pos (hh.cache.n_zero.mpr hp)]
    apply Ok.pure
    exact direct hp
  rw [if_neg (fun x => hp (hh.cache.n_zero.mp x))]
  have hfb := hh.buffered hp
  have hpl := hh.pend_legal hp
  apply Ok.bind
  have hfs := flushCache_crash hr hnf hh.n hh.mm hh.cache (by rw [hfl]; exact hfb.2) hpl hh.csz k envF
  rw [hfl] at hfs
  refine hfs.mono (fun p hc => hc.seen hdp (by simp) (by simp)) ?_
  rintro o r1 ⟨ho, hr1, hc1⟩
  have hsl := SpLe.tryWrite sp k (sh.flags.has SHR_NONBLOCK) sh.pend envF
  have hs1 : Seen r sp [[], sh.pend, sh.pend ++ iov] r1 := hc1.seen hdp (by simp) (by simp)
  cases o with
  | wait => apply Ok.pure; exact Ok.pure hs1
  | ret rc wk =>
    dsimp only
    by_cases hrc : rc ≤ 0
    · rw [if_pos hrc]; apply Ok.pure; exact Ok.pure hs1
    rw [if_neg hrc]
    obtain ⟨g1, g2, g3⟩ := tryWrite_grown hr.fle hdp ho.symm hrc
    have hdr1 : (sp.tryWrite k (sh.flags.has SHR_NONBLOCK) sh.pend envF).1.drop = sp.drop := by
      unfold Spec.drop; rw [hsl.gf]
    generalize (sp.tryWrite k (sh.flags.has SHR_NONBLOCK) sh.pend envF).1 = sp1 at *
    have hh2 := (hh.mono hsl).cleared
    unfold cacheLoop
    have hfl2 : ({ h with c := { h.c with n := 0, vm := 0 } } : Handle).flags = sh.flags := hfl
    rw [if_neg (by rw [hfl2]; exact hb)]
    have hL1 : Legal sp1.cap sp1.maxm iov := by rw [hsl.cap, hsl.maxm]; exact hL
    by_cases hf2 : Spec.cacheFits { sh with pend := [] } iov
    · rw [if_pos ((cacheFits_iff hh2 iov).mpr hf2)]
      obtain ⟨c', e', hh'⟩ := hh2.cacheAll hL.2.1 hf2
      refine Ok.lift_bind e' ?_
      apply Ok.pure
      exact Ok.pure hs1
    · rw [if_neg (fun x => hf2 ((cacheFits_iff hh2 iov).mp x))]
      rw [if_pos rfl]
      apply Ok.pure
      have hd1 : Fits sp1.cap sp1.maxm sp1.unread iov ∨ sp1.drop = false := by
        rw [hsl.cap, hsl.maxm, g1, hdr1]; exact hd.imp Fits.right id
      have hs : ∀ p, CrashOk r1 sp1 iov p → Seen r sp [[], sh.pend, sh.pend ++ iov] p := by
        intro p hc
        obtain ⟨h, hst⟩ := hc hd1
        refine ⟨?_, ?_⟩
        · rcases h with h | h
          · rw [g1, g2] at h; exact ⟨_, by simp, h⟩
          · rw [g1, g2, List.append_assoc] at h; exact ⟨_, by simp, h⟩
        · refine ⟨hst.1.trans hs1.2.1, fun q hq => ?_⟩
          obtain ⟨q', hq'⟩ := hr1.cview.core
          have h3 := hst.2 q' hq'
          rw [g1, g2] at hq' h3
          have h4 := hs1.2.2 q hq
          rcases h4.same hq'.left with he | rfl
          · exact (h4.stay (s := p) (by
              rw [he] at h4 ⊢
              exact ⟨h3.npos, h3.nbd, h3.mmpos, h3.mmbd, h3.dlen, h3.mvlen, fun _ h => (by cases h), Nat.zero_le _, Nat.zero_le _,
                by rw [hst.1]; exact h4.p0lt, fun j b hj => by simp at hj, fun t x ht => by simp at ht⟩) hst.1).2 q h4
          · exact h3.left
      exact (attempt_crash hr1 (by unfold Spec.farm at *; rw [hsl.gf]; exact hnf) hh2 hL1 k env).mono hs (fun _ => hs)

/-- Crash points of a flush. -/
theorem shr_flush_crash {r : Ring} {sp : Spec} (hr : RingRel r sp) (hnf : sp.farm = false) {h : Handle} {sh : SHandle}
    (hh : HRel sp h sh) (hw : sh.flags.has SHR_WRONLY = true) (k : Nat) (wait : Bool) (env : Env)
    (hd : Fits sp.cap sp.maxm sp.unread sh.pend ∨ sp.drop = false) :
    Ok (shr_flush h wait env) r (Seen r sp [[], sh.pend]) (fun _ r' => Seen r sp [[], sh.pend] r') := by
  have h0 : Seen r sp [[], sh.pend] r := hr.seen (by simp)
  obtain ⟨fl, cur, c, n, mm, r2w⟩ := h
  have hfl : fl = sh.flags := hh.flags
  subst hfl
  unfold shr_flush
  apply Ok.assert_bind hw
  by_cases hp : sh.pend = []
  · rw [if_pos (hh.cache.n_zero.mpr hp)]
    exact Ok.pure h0
  rw [if_neg (fun x => hp (hh.cache.n_zero.mp x))]
  have hfb := hh.buffered hp
  have hpl := hh.pend_legal hp
  have fl : ∀ f : Flags, ∀ b, f.getLsbD 14 = true → Ok (flushCache ⟨f, cur, c, n, mm, b⟩ env) r (Seen r sp [[], sh.pend])
      (fun _ r' => Seen r sp [[], sh.pend] r') := fun f b hf =>
    (flushCache_crash (h := ⟨f, cur, c, n, mm, b⟩) hr hnf hh.n hh.mm hh.cache hf hpl hh.csz k env).mono
      (fun _ h => h.seen hd (by simp) (by simp)) (fun _ _ h => h.2.2.seen hd (by simp) (by simp))
  cases ht : (sh.flags.has SHR_NONBLOCK && wait)
  · simp only [Bool.false_eq_true, false_and, if_false]
    apply Ok.bind
    refine (fl _ _ hfb.2).mono (fun _ h => h) ?_
    rintro o r1 h1
    exact Ok.pure h1
  · simp only [if_true, true_and]
    by_cases hbad : r2w = false ∧ (env.lockOk = false ∨ env.bwOpenOk = false)
    · rw [if_pos hbad]
      exact Ok.pure h0
    · rw [if_neg hbad]
      apply Ok.bind
      refine (fl _ _ (by rw [clear_NONBLOCK _ _ (by decide), hfb.2]; rfl)).mono (fun _ h => h) ?_
      rintro o r1 h1
      exact Ok.pure h1

/-- Crash points of the final flush of a close. -/
theorem shr_close_crash {r : Ring} {sp : Spec} (hr : RingRel r sp) (hnf : sp.farm = false) {h : Handle} {sh : SHandle}
    (hh : HRel sp h sh) (k : Nat) (env : Env) (hd : Fits sp.cap sp.maxm sp.unread sh.pend ∨ sp.drop = false) :
    Ok (shr_close h env) r (Seen r sp [[], sh.pend]) (fun _ r' => Seen r sp [[], sh.pend] r') := by
  unfold shr_close
  by_cases hp : sh.pend = []
  · rw [if_neg (by simp [hh.cache.n_zero.mpr hp])]
    exact Ok.pure (hr.seen (by simp))
  · rw [if_pos (fun x => hp (hh.cache.n_zero.mp x))]
    apply Ok.bind
    have hfb := hh.buffered hp
    refine (shr_flush_crash hr hnf hh (by rw [has_WRONLY]; exact hfb.2) k false env hd).mono (fun _ h => h) ?_
    rintro x r' h1
    exact Ok.pure h1

theorem memcpyApp_points {r : Ring} {b : List Byte} (h : b.length = r.app.length) {p : Ring} :
    p ∈ (memcpyShared Ring.app (fun a r => { r with app := a }) 0 b r).trace →
      ∃ c, c.length = r.app.length ∧ p = { r with app := c } := by
  intro hp
  unfold memcpyShared at hp
  rw [if_pos (by omega)] at hp
  dsimp only at hp
  obtain ⟨j, hj, rfl⟩ := List.mem_map.mp hp
  exact ⟨_, put_length (by simp; omega), rfl⟩

theorem memcpyApp_res {r : Ring} {b : List Byte} (h : b.length = r.app.length) :
    (memcpyShared Ring.app (fun a r => { r with app := a }) 0 b r).res = .ok () { r with app := b } := by
  unfold memcpyShared
  rw [if_pos (by omega)]
  dsimp only
  unfold put
  simp [h]

/-- States found inside a `shr_stat` call. -/
def StatPt (r p : Ring) : Prop := p = r ∨ ∃ t, p = { r with stat := { start := t } }

theorem shr_stat_crash (h : Handle) (reset : Option Timeval) (env : Env) (r : Ring) :
    Ok (shr_stat h reset env) r (StatPt r) (fun _ p => StatPt r p) := by
  unfold shr_stat
  by_cases hl : env.lockOk = false
  · rw [if_pos hl]; exact Ok.pure (.inl rfl)
  rw [if_neg hl]
  apply Ok.get_bind
  dsimp only
  cases reset with
  | none => dsimp only; split <;> exact Ok.pure (.inl rfl)
  | some t =>
    refine Ok.store_bind (.inl rfl) ?_
    refine Ok.store_bind (.inr ⟨(0, 0), rfl⟩) ?_
    dsimp only
    split <;> exact Ok.pure (.inr ⟨t, rfl⟩)

/-- States found inside a `shr_appdata` call. -/
def AppPt (r p : Ring) : Prop := p = r ∨ ∃ b, b.length = r.app.length ∧ p = { r with app := b }

theorem memcpyApp_ok {r : Ring} {b : List Byte} (h : b.length = r.app.length) :
    Ok (memcpyShared Ring.app (fun a r => { r with app := a }) 0 b) r (AppPt r) (fun _ p => AppPt r p) :=
  ⟨fun _ hp => .inr (memcpyApp_points h hp), (), _, memcpyApp_res h, .inr ⟨b, h, rfl⟩⟩

theorem shr_appdata_crash {get : GetArg} {set : Option (List Byte)} {sz : Nat} (env : Env) {r : Ring}
    (hal : r.app.length = r.app_len) (hwf : AppWF r.app_len get set sz) :
    Ok (shr_appdata get set sz env) r (AppPt r) (fun _ p => AppPt r p) := by
  obtain ⟨w1, w2, w3⟩ := hwf
  have h0 : AppPt r r := .inl rfl
  unfold shr_appdata
  by_cases hl : env.lockOk = false
  · rw [if_pos hl]; exact Ok.pure h0
  rw [if_neg hl]
  apply Ok.get_bind
  by_cases hz : r.app_len = 0
  · rw [if_pos hz]; exact Ok.pure h0
  rw [if_neg hz]
  have hfin : ∀ (got : Option (List Byte)) (sz' : Nat) (r1 : Ring), AppPt r r1 →
      Ok ((if r.gflags.has SHR_SYNC = true ∧ env.syncOk = false then pure ⟨-1, got, sz'⟩
        else pure ⟨0, got, sz'⟩ : M Ring AppOut)) r1 (AppPt r) (fun _ p => AppPt r p) := by
    intro got sz' r1 h1
    split <;> exact Ok.pure h1
  cases get with
  | null =>
    cases set with
    | none => exact hfin _ _ _ h0
    | some b =>
      have := w1 b rfl
      dsimp only
      by_cases hs : sz ≠ r.app_len
      · rw [if_pos hs]; exact Ok.pure h0
      rw [if_neg hs]
      refine Ok.lift_bind (memRead_take this) ?_
      apply Ok.bind
      refine (memcpyApp_ok (b := b.take sz) (by simp; omega)).mono (fun _ h => h) ?_
      intro _ r1 hr1
      exact hfin _ _ _ hr1
  | alloc =>
    cases set with
    | none =>
      dsimp only
      by_cases hm : env.mallocOk = false
      · rw [if_pos hm]; exact Ok.pure h0
      · rw [if_neg hm]
        refine Ok.lift_bind (memRead_take (by omega)) ?_
        exact hfin _ _ _ h0
    | some b => exact hfin _ _ _ h0
  | into cap =>
    have hc := w2 cap rfl
    cases set with
    | none =>
      have := w3 cap rfl rfl
      dsimp only
      by_cases hs : sz < r.app_len
      · rw [if_pos hs]; exact Ok.pure h0
      rw [if_neg hs]
      refine Ok.lift_bind (memRead_take (by omega)) ?_
      rw [if_pos hc]
      exact Ok.pure_bind (hfin _ _ _ h0)
    | some b =>
      have := w1 b rfl
      dsimp only
      by_cases hs : sz ≠ r.app_len
      · rw [if_pos hs]; exact Ok.pure h0
      rw [if_neg hs]
      refine Ok.lift_bind (memRead_take (by omega)) ?_
      rw [if_pos hc]
      refine Ok.lift_bind (memRead_take this) ?_
      apply Ok.bind
      refine (memcpyApp_ok (b := b.take sz) (by simp; omega)).mono (fun _ h => h) ?_
      intro _ r1 hr1
      exact hfin _ _ _ hr1

theorem appdata_set {r : Ring} (hal : r.app.length = r.app_len) (h0 : r.app_len ≠ 0) {b : List Byte} (hb : b.length = r.app.length) :
    exec (shr_appdata .null (some b) b.length {}) r = .ok (⟨0, none, b.length⟩, { r with app := b }) := by
  unfold exec shr_appdata
  have e : memRead b 0 b.length = .ok b := by rw [memRead_take (Nat.le_refl _), List.take_length]
  simp only [Bool.true_eq_false, if_false, if_neg h0, and_false, M.bind_apply, M.get_apply, hb, hal, ne_eq, not_true_eq_false]
  have hb' := hb.trans hal
  rw [← hb', e]
  simp only [M.lift_ok, memcpyApp_res hb, M.pure_apply, hb']

end Shr
