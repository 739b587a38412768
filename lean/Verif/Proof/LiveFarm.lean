import Verif.Proof.LiveM
/-! # Progress on farm rings: every reader has its own position -/
namespace Shr

/-- One attempt of a read, in terms of the specification: what it returned and what is left for this reader. -/
theorem farm_read_spec {r : Ring} {sp : Spec} (hr : RingRel r sp) {sh : SHandle} {buf : List Byte} {niov : Nat} {env : Env} (hfm : sp.farm = true)
    (hw : env.waitRc = none) :
    (sp.readv sh buf niov env).2.2.msgs ++ (sp.readv sh buf niov env).1.readable (sp.readv sh buf niov env).2.1 = sp.readable sh ∧
    (sp.readv sh buf niov env).1.tlog = sp.tlog ∧ (sp.readv sh buf niov env).1.base = sp.base ∧ (sp.readv sh buf niov env).1.gflags = sp.gflags ∧
    (env.lockOk = true → 0 < niov → sp.cap ≤ buf.length → (sp.readv sh buf niov env).2.2 ≠ .blocked →
      (sp.readv sh buf niov env).2.2.msgs ≠ [] ∨ (sp.readable sh = [] ∧ sh.flags.has SHR_NONBLOCK = true ∧ (sp.readv sh buf niov env).2.2 = .read 0 [] buf)) := by
  have hnone : ∀ rc : Int, (Out.read rc [] buf).msgs = [] := fun _ => rfl
  have hcu : ∀ sp' : Spec, sp'.tlog = sp.tlog → sp'.base = sp.base → sp'.gflags = sp.gflags → sp'.readable (sp.catchUp sh) = sp.readable sh := by
    intro sp' e1 e2 e3
    unfold Spec.readable Spec.catchUp Spec.farm Spec.log
    rw [e1, e2, e3]
    have : sp.gflags.has SHR_FARM = true := hfm
    rw [this]
    simp only [if_true]
    congr 1
    omega
  unfold Spec.readv
  by_cases hne0 : buf.length = 0 ∨ niov = 0 ∨ env.lockOk = false
  · rw [if_pos hne0]
    obtain ⟨p0, hg⟩ := hr.rep.geo
    have hcap : 0 < sp.cap := by rw [← hr.n]; exact hg.npos
    refine ⟨rfl, rfl, rfl, rfl, fun h1 h2 h3 => ?_⟩
    rcases hne0 with h | h | h
    · omega
    · omega
    · rw [h1] at h; cases h
  rw [if_neg hne0]
  dsimp only
  by_cases hU : sp.readable sh = []
  · rw [if_pos hU]
    by_cases hnb : sh.flags.has SHR_NONBLOCK = true
    · rw [if_pos hnb]
      refine ⟨?_, rfl, rfl, rfl, fun _ _ _ _ => .inr ⟨hU, hnb, rfl⟩⟩
      exact hcu sp rfl rfl rfl
    · rw [if_neg hnb, hw]
      exact ⟨hcu sp rfl rfl rfl, rfl, rfl, rfl, fun _ _ _ h => absurd rfl h⟩
  · rw [if_neg hU, if_pos hfm, if_pos hfm]
    have hle := takeCount_bytes (sp.readable sh) (min buf.length SSIZE_MAX) niov
    have hmsgs : ∀ rc : Int, (Out.read rc (layout 0 ((sp.readable sh).take (takeCount (sp.readable sh) (min buf.length SSIZE_MAX) niov)))
        (put buf 0 ((sp.readable sh).take (takeCount (sp.readable sh) (min buf.length SSIZE_MAX) niov)).flatten)).msgs =
        (sp.readable sh).take (takeCount (sp.readable sh) (min buf.length SSIZE_MAX) niov) := by
      intro rc
      exact slices_layout _ _ _ (by omega)
    refine ⟨?_, rfl, rfl, rfl, fun h1 h2 h3 _ => .inl ?_⟩
    · dsimp only
      rw [hmsgs]
      generalize takeCount (sp.readable sh) (min buf.length SSIZE_MAX) niov = t
      have hgf : sp.gflags.has SHR_FARM = true := hfm
      have e : sp.readable sh = sp.log.drop (max sh.pos sp.base) := by unfold Spec.readable; rw [if_pos hfm]
      have e2 : sp.catchUp sh = { sh with pos := max sh.pos sp.base, missed := sh.missed + (sp.base - sh.pos) } := by
        unfold Spec.catchUp; rw [if_pos hfm]
      rw [e2]
      unfold Spec.readable at e ⊢
      unfold Spec.farm Spec.log at e ⊢
      dsimp only at e ⊢
      rw [if_pos hgf]
      have e3 : max (max sh.pos sp.base + t) sp.base = max sh.pos sp.base + t := by omega
      rw [e3, if_pos hgf, ← List.drop_drop, List.take_append_drop]
    · dsimp only
      rw [hmsgs]
      have htot : bytesOf (sp.readable sh) ≤ sp.cap := by
        obtain ⟨p0, hg⟩ := hr.rep.geo
        have := hg.tot
        rw [hr.n] at this
        have e : sp.readable sh = (sp.log.drop sp.base).drop (max sh.pos sp.base - sp.base) := by
          unfold Spec.readable; rw [if_pos hfm, List.drop_drop]; congr 1; omega
        rw [e]
        exact Nat.le_trans (bytesOf_drop_le _ _) this
      have hcs := hr.cap_le
      have ht : 1 ≤ takeCount (sp.readable sh) (min buf.length SSIZE_MAX) niov := by
        refine takeCount_max ?_ h2 ?_
        · cases hx : sp.readable sh with
          | nil => exact absurd hx hU
          | cons a l => simp
        · refine Nat.le_trans (m := bytesOf (sp.readable sh)) ?_ (by omega)
          cases hx : sp.readable sh with
          | nil => exact absurd hx hU
          | cons a l => simp [bytesOf]
      intro he
      have e4 := congrArg List.length he
      rw [List.length_take, List.length_nil] at e4
      have : 0 < (sp.readable sh).length := List.length_pos_iff.2 hU
      omega

/-- What one attempt of a read by handle `k` of a farm ring did. -/
structure FRead (w w' : WSys) (k : Nat) (op : Op) (o : Out) (ops : List BOp) : Prop where
  other : ∀ j, j ≠ k → w'.sys.hs j = w.sys.hs j
  blk : w'.blk = upd w.blk k (if o = .blocked then some (op, false) else none)
  n : w'.sys.ring.n = w.sys.ring.n
  gf : w'.sys.ring.gflags = w.sys.ring.gflags
  runs : w'.b = w.b.runs ops
  avoid : ∀ x ∈ ops, ∀ i p, i ≠ 2 * k → i ≠ 2 * k + 1 → x.avoids i p
  calm : o = .blocked → ops = []
  same : ∀ j hd, j ≠ k → w.sys.hs j = .live hd → w'.sys.ring.readableBy hd = w.sys.ring.readableBy hd
  rd : ∀ hd, w.sys.hs k = .live hd → ∃ hd', w'.sys.hs k = .live hd' ∧ hd'.flags = hd.flags ∧
    o.msgs ++ w'.sys.ring.readableBy hd' = w.sys.ring.readableBy hd
  big : op.bigRead w.sys.ring.n = true → o ≠ .blocked → o.msgs ≠ [] ∨
    ∃ hd os, w.sys.hs k = .live hd ∧ hd.flags.has SHR_NONBLOCK = true ∧ ops = [.force (2 * k) false os]

theorem fread_tried {a : InitArgs} {pid : Nat → Nat} {hist : List Op} {w w' : WSys} {sp : Spec} (hrep : Repr a pid hist w sp) (hfm : sp.farm = true)
    {k : Nat} {buf : List Byte} {niov : Nat} {env : Env} {os : WOs} {o : Out} {ops : List BOp} (hwf : (Op.readv k buf niov env).WF a.appsize)
    {sh : SHandle} (hk : sp.hs k = .live sh) (hro : sh.flags.has SHR_RDONLY = true) (hl : env.lockOk = true)
    (hat : w.attempt pid (.readv k buf niov env) os = some (w', o, ops)) : FRead w w' k (.readv k buf niov env) o ops := by
  have hw := hrep.inv
  have hstep : sp.step (.readv k buf niov { env with waitRc := none }) =
      ({ (sp.readv sh buf niov { env with waitRc := none }).1 with hs := upd sp.hs k (.live (sp.readv sh buf niov { env with waitRc := none }).2.1) },
        (sp.readv sh buf niov { env with waitRc := none }).2.2) := by
    simp only [Spec.step, hk, hro, Bool.true_eq_false, if_false]
  obtain ⟨s1, s2, s3, s4, s5⟩ := farm_read_spec hw.rel.ring (sh := sh) (buf := buf) (niov := niov) (env := { env with waitRc := none }) hfm rfl
  have hlog : sp.farm = true → (sp.step (.readv k buf niov { env with waitRc := none })).1.log.length < W := by
    intro _
    rw [hstep]
    have := (hw.rel.ring.farm hfm).2.2
    unfold Spec.log at this ⊢
    dsimp only
    rw [s2]
    exact this
  have hwf' : (Op.readv k buf niov { env with waitRc := none }).WF sp.app.length := by rw [hw.app]; exact hwf
  obtain ⟨s', hst, hrel'⟩ := step_refine hw.rel _ hwf' hlog
  have hsent := sent_step hw.rel _ hwf' (by rintro _ _ _ _ _ e; cases e) hlog
  unfold WSys.attempt at hat
  have hfill : w.fill pid os (.readv k buf niov env) = .readv k buf niov { env with waitRc := none } := rfl
  rw [hfill, hst] at hat
  simp only [Option.some.injEq, Prod.mk.injEq] at hat
  obtain ⟨rfl, rfl, rfl⟩ := hat
  generalize hfo : Op.readv k buf niov { env with waitRc := none } = fop at *
  have fh : fop.handle = k := by rw [← hfo]; rfl
  have hno : ∀ k flags env, fop ≠ .open k flags env := by rintro _ _ _ e; rw [← hfo] at e; cases e
  have hout : (sp.step fop).2 = (sp.readv sh buf niov { env with waitRc := none }).2.2 := by rw [hstep]
  have hhs : (sp.step fop).1.hs = upd sp.hs k (.live (sp.readv sh buf niov { env with waitRc := none }).2.1) := by rw [hstep]
  have hrd : ∀ h, (sp.step fop).1.readable h = (sp.readv sh buf niov { env with waitRc := none }).1.readable h := by
    intro h; rw [hstep]; rfl
  have hflags := (readv_facts sp sh buf niov { env with waitRc := none }).2.2.2.1
  generalize hx : sp.readv sh buf niov { env with waitRc := none } = x at *
  refine { other := ?_, blk := rfl, n := ?_, gf := ?_, runs := rfl, avoid := ?_, calm := ?_, same := ?_, rd := ?_, big := ?_ }
  · intro j hj
    exact sys_step_other hst (by rw [fh]; exact fun e => hj e.symm)
  · rw [hrel'.ring.n, hw.rel.ring.n]; exact hsent.le.cap
  · rw [hrel'.ring.gf, hw.rel.ring.gf]; exact hsent.le.gf
  · have := bops_own (w := w) (pid := pid) (os := os) (o := (sp.step fop).2) (op := fop) hno
    rw [fh] at this
    exact this
  · intro hb
    rw [hb] at hst ⊢
    exact bops_blocked hw.rel hno (by rintro _ _ _ e; rw [← hfo] at e; cases e) hst
  · intro j hd hj hlive
    obtain ⟨shj, e1, e2⟩ := hw.rel.live hlive
    have hlive' : s'.hs j = .live hd := by rw [sys_step_other hst (by rw [fh]; exact fun e => hj e.symm)]; exact hlive
    obtain ⟨shj', f1, f2⟩ := hrel'.live hlive'
    have f1 : (sp.step fop).1.hs j = .live shj' := f1
    rw [hhs, upd_other _ _ hj, e1] at f1
    cases f1
    dsimp only
    rw [readableBy_eq hrel'.ring f2, readableBy_eq hw.rel.ring e2, hrd]
    unfold Spec.readable Spec.farm Spec.log
    have hgf : sp.gflags.has SHR_FARM = true := hfm
    rw [s2, s3, s4, if_pos hgf, if_pos hgf]
  · intro hd hlive
    obtain ⟨shk, e1, e2⟩ := hw.rel.live hlive
    rw [hk] at e1; cases e1
    obtain ⟨hd', f1, f2⟩ := hrel'.live' (k := k) (sh := x.2.1) (by rw [hhs, upd_same])
    refine ⟨hd', f1, by rw [f2.flags, e2.flags, hflags], ?_⟩
    dsimp only
    rw [readableBy_eq hrel'.ring f2, readableBy_eq hw.rel.ring e2, hrd, hout]
    exact s1
  · intro hbig hb
    simp only [Op.bigRead, Bool.and_eq_true, decide_eq_true_eq] at hbig
    rw [hout] at hb ⊢
    rcases s5 hl hbig.2 (by rw [← hw.rel.ring.n]; exact hbig.1) hb with h | ⟨hU, hnb, h⟩
    · exact .inl h
    right
    obtain ⟨hd, a1, a2⟩ := hw.rel.live' hk
    refine ⟨hd, os.o2, a1, by rw [a2.flags]; exact hnb, ?_⟩
    have hdry := hsent.dry k buf niov _ sh hfo.symm hk hU
    have e1 : (sp.step fop).1.hs k = .live x.2.1 := by rw [hhs, upd_same]
    have hfr := hsent.frc k buf niov _ x.2.1 hfo.symm e1 (by rw [hflags]; exact hnb)
    have hforce : (w.sys.signal fop).force = some false := by
      cases hy : (w.sys.signal fop).force with
      | none =>
        rw [hy] at hfr
        obtain ⟨_, _, h3 | h3⟩ := hfr
        · rw [hout, h] at h3; cases h3
        · rw [hout, h] at h3
          injection h3 with h3
          cases h3
      | some f =>
        rw [hy] at hfr
        dsimp only at hfr
        rw [hU, h] at s1
        rw [hrd] at hfr
        have s1 : x.1.readable x.2.1 = [] := s1
        rw [s1] at hfr
        rw [hfr]; rfl
    rw [← hfo] at hdry hforce ⊢
    unfold WSys.bops
    dsimp only
    rw [hdry, hforce]
    rfl

/-- The eager steps on a farm ring: only readers wait. -/
theorem farm_cases {a : InitArgs} {pid : Nat → Nat} {S : BOp → Bool} {hist : List Op} {w w' : WSys} {x : WOp} {o : Out} {ops : List BOp}
    (h : AReach a pid hist w) (hf : w.sys.ring.gflags.has SHR_FARM = true) (hs : EStep a pid S hist w x w' o ops) :
    (∃ k op os, x = .wakeup k os ∧ Woken w w' k op os o ops) ∨
    (∃ k op, FRead w w' k op o ops ∧ (∃ hd, w.sys.hs k = .live hd) ∧
      ((∃ op0 env os, x = .resume k env os ∧ w.blk k = some (op0, true) ∧ op = op0.withEnv env ∧ env.lockOk = true) ∨
       (∃ os, x = .call op os ∧ op.handle = k ∧ w.blk k = none ∧ op.bigRead w.sys.ring.n = true ∧ ∃ hd, w.sys.hs k = .live hd ∧
          hd.flags.has SHR_RDONLY = true ∧ (hd.flags.has SHR_NONBLOCK = false ∨ 1 ≤ w.b.pending (2 * k))))) := by
  obtain ⟨sp, hrep⟩ := h.state
  have hfm : sp.farm = true := by unfold Spec.farm; rw [← hrep.inv.rel.ring.gf]; exact hf
  obtain ⟨⟨hwf, hfarm, hst⟩, _, _, he⟩ := hs
  cases hst with
  | call hca hat =>
    rename_i op os
    right
    cases op with
    | readv k buf niov env =>
      obtain ⟨hl, hn, hi, hd, e1, e2, e3⟩ := he
      obtain ⟨sh, g1, g2⟩ := hrep.inv.rel.live e1
      have ht := fread_tried hrep hfm (hwf _ _ rfl) (sh := sh) g1 (by rw [← g2.flags]; exact e2) hl hat
      refine ⟨k, _, ht, ⟨hd, e1⟩, .inr ⟨os, rfl, rfl, hca.1, ?_, hd, e1, e2, e3⟩⟩
      simp [Op.bigRead, hn, hi]
    | _ => exact he.elim
  | wakeup hb h1 h2 => exact .inl ⟨_, _, _, rfl, hb, h1, h2, rfl, rfl, rfl⟩
  | resume hb hat =>
    rename_i k op env os
    right
    obtain ⟨e1, e2, sh, e3, e4⟩ := hrep.inv.blk k op true hb
    obtain ⟨hd, g1, _⟩ := hrep.inv.rel.live' e3
    rcases e4 with ⟨⟨k', buf, niov, env', rfl⟩, hro, _⟩ | ⟨_, _, _, hdr, _⟩
    · have e1 : k' = k := e1
      subst e1
      exact ⟨k', .readv k' buf niov env, fread_tried (env := env) hrep hfm e2 e3 hro he hat, ⟨hd, g1⟩, .inl ⟨_, env, os, rfl, hb, rfl, he⟩⟩
    · rw [(hrep.inv.rel.ring.farm hfm).2.1] at hdr; cases hdr
  | interrupt => exact he.elim
  | kill => exact he.elim

/-- On a farm ring only reads wait. -/
theorem farm_waits {a : InitArgs} {pid : Nat → Nat} {hist : List Op} {w : WSys} (h : AReach a pid hist w) (hf : w.sys.ring.gflags.has SHR_FARM = true)
    {k : Nat} {op : Op} {b : Bool} (hb : w.blk k = some (op, b)) : ∃ buf niov env, op = .readv k buf niov env := by
  obtain ⟨sp, hrep⟩ := h.state
  have hfm : sp.farm = true := by unfold Spec.farm; rw [← hrep.inv.rel.ring.gf]; exact hf
  obtain ⟨e1, e2, sh, e3, e4⟩ := hrep.inv.blk k op b hb
  rcases e4 with ⟨⟨k', buf, niov, env', rfl⟩, hro, _⟩ | ⟨_, _, _, hdr, _⟩
  · have e1 : k' = k := e1
    subst e1
    exact ⟨_, _, _, rfl⟩
  · rw [(hrep.inv.rel.ring.farm hfm).2.1] at hdr; cases hdr

/-! ## The measure -/

/-- Messages that reader `k` has yet to read. -/
def WSys.fmu (w : WSys) (k : Nat) : Nat :=
  match w.sys.hs k with
  | .live hd => if hd.flags.has SHR_RDONLY then (w.sys.ring.readableBy hd).length else 0
  | _ => 0

def WSys.farmMu (w : WSys) (N : Nat) : Nat × Nat × Nat × Nat := (sumTo w.fmu N, sumTo w.mu2 N, sumTo w.mu3 N, sumTo w.mu4 N)

/-- Every eager step decreases the measure. -/
theorem farm_decreases {a : InitArgs} {pid : Nat → Nat} {hist : List Op} {w w' : WSys} {x : WOp} {o : Out} {ops : List BOp} {S : BOp → Bool}
    (hS : ∀ k y, BOp.forces (2 * k) y = true → S y = true)
    (h : CReach a pid hist w) (hf : w.sys.ring.gflags.has SHR_FARM = true) (hs : EStep a pid S hist w x w' o ops) {N : Nat} (hN : w.Below N) :
    lex4 (w'.farmMu N) (w.farmMu N) ∧ w'.Below N ∧ w'.sys.ring.gflags = w.sys.ring.gflags := by
  have lt : ∀ {k hd}, w.sys.hs k = .live hd → k < N := by
    intro k hd e
    rcases Nat.lt_or_ge k N with h | h
    · exact h
    · rw [hN k h] at e; cases e
  rcases farm_cases h.any hf hs with ⟨k, op, os, rfl, hwk⟩ | ⟨k, op, ht, ⟨hd, hlive⟩, hx⟩
  · -- a wake-up arrives
    obtain ⟨hb, hp, hr, rfl, rfl, rfl⟩ := hwk
    refine ⟨?_, hN, rfl⟩
    obtain ⟨e1, t, e2⟩ := C55_waits_on_own_handle h.any hb
    obtain ⟨hd, hlive, _⟩ := h.any.waiting k op false hb
    have hk := lt hlive
    unfold WSys.farmMu
    refine lex4_of (.inr ⟨?_, .inr ⟨?_, .inr ⟨?_, ?_⟩⟩⟩)
    · exact Nat.le_of_eq (sumTo_congr fun j _ => rfl)
    · refine Nat.le_of_eq (sumTo_congr fun j _ => ?_)
      unfold WSys.mu2
      dsimp only
      by_cases hj : j = k
      · subst hj; rw [upd_same, hb]
      · rw [upd_other _ _ hj]
    · refine Nat.le_of_eq (sumTo_congr fun j _ => ?_)
      unfold WSys.mu3
      dsimp only
      by_cases hj : j = k
      · subst hj; rw [upd_same, hb]
      · rw [upd_other _ _ hj]
    · have hsum := sumTo_upd (f := w.mu4) (g := WSys.mu4 { w with b := w.b.runs [.ready op.waitsOn os], blk := upd w.blk k (some (op, true)) }) hk (by
        intro j hj
        refine mu4_other h hs.clean rfl hj ?_ ?_ (upd_other _ _ hj) rfl
        · intro x hx i p h1 h2
          simp only [List.mem_singleton] at hx
          subst hx
          show op.waitsOn ≠ i
          rcases waitsOn_own e1 with e | e <;> omega
        · intro x hx i os' e
          simp only [List.mem_singleton] at hx
          subst hx; cases e)
      have f1 : w.mu4 k = 2 * w.b.pending op.waitsOn := by unfold WSys.mu4; rw [hb]; simp
      have f2 : WSys.mu4 { w with b := w.b.runs [.ready op.waitsOn os], blk := upd w.blk k (some (op, true)) } k =
          2 * (w.b.pending op.waitsOn - 1) + 1 := by
        unfold WSys.mu4
        dsimp only
        rw [upd_same]
        dsimp only
        rw [if_pos rfl]
        show 2 * (w.b.step _).1.pending _ + 1 = _
        rw [ready_pending h.breach e2 hr]
      omega
  · have hk := lt hlive
    refine ⟨?_, ?_, ht.gf⟩
    · -- what changes
      have hbo : ∀ j, j ≠ k → w'.blk j = w.blk j := fun j hj => by rw [ht.blk, upd_other _ _ hj]
      have hbk : w'.blk k = if o = .blocked then some (op, false) else none := by rw [ht.blk, upd_same]
      have s1 := sumTo_upd (f := w.fmu) (g := w'.fmu) hk (by
        intro j hj
        unfold WSys.fmu
        rw [ht.other j hj]
        cases e : w.sys.hs j with
        | never => rfl
        | gone b => rfl
        | live hdj => dsimp only; rw [ht.same j hdj hj e])
      have s2 := sumTo_upd (f := w.mu2) (g := w'.mu2) hk (by
        intro j hj
        unfold WSys.mu2
        rw [hbo j hj, ht.n])
      have s3 := sumTo_upd (f := w.mu3) (g := w'.mu3) hk (by
        intro j hj
        unfold WSys.mu3
        rw [hbo j hj])
      obtain ⟨hd1, c1, c2, c3⟩ := ht.rd hd hlive
      have hro : hd.flags.has SHR_RDONLY = true := by
        obtain ⟨sp, hrep⟩ := h.any.state
        rcases hx with ⟨op0, env, os, rfl, hb0, rfl, _⟩ | ⟨os, rfl, _, hb0, hbig, hd', e1, e2, _⟩
        · obtain ⟨_, _, _, rfl⟩ := farm_waits h.any hf hb0
          obtain ⟨_, _, sh, g1, g2⟩ := hrep.inv.blk _ _ _ hb0
          obtain ⟨sh', d1, d2⟩ := hrep.inv.rel.live hlive
          rw [g1] at d1; cases d1
          rcases g2 with ⟨_, g2, _⟩ | ⟨g2, _⟩
          · rw [d2.flags]; exact g2
          · cases g2
        · rw [hlive] at e1; cases e1; exact e2
      have m1 : w.fmu k = (w.sys.ring.readableBy hd).length := by unfold WSys.fmu; rw [hlive]; dsimp only; rw [if_pos hro]
      have m1' : w'.fmu k = (w'.sys.ring.readableBy hd1).length := by unfold WSys.fmu; rw [c1]; dsimp only; rw [if_pos (by rw [c2]; exact hro)]
      have c4 := congrArg List.length c3
      rw [List.length_append] at c4
      unfold WSys.farmMu
      by_cases hbl : o = .blocked
      · -- it waits (again)
        have := ht.calm hbl
        subst this
        rw [if_pos hbl] at hbk
        have m2' : w'.mu2 k = if op.bigRead w.sys.ring.n then 0 else 1 := by
          unfold WSys.mu2; rw [hbk]; dsimp only; rw [ht.n]
        have m3' : w'.mu3 k = 0 := by unfold WSys.mu3; rw [hbk]
        rcases hx with ⟨op0, env, os, rfl, hb0, rfl, _⟩ | ⟨os, rfl, _, hb0, hbig, hd', _⟩
        · have m2 : w.mu2 k = if (op0.withEnv env).bigRead w.sys.ring.n then 0 else 1 := by
            unfold WSys.mu2; rw [hb0]; dsimp only; cases op0 <;> rfl
          have m3 : w.mu3 k = 0 := by unfold WSys.mu3; rw [hb0]
          have s4 := sumTo_upd (f := w.mu4) (g := w'.mu4) hk (by
            intro j hj
            exact mu4_other h hs.clean ht.runs hj ht.avoid (by intro x hx; cases hx) (hbo j hj) (ht.other j hj))
          have m4 : w.mu4 k = 2 * w.b.pending op0.waitsOn + 1 := by unfold WSys.mu4; rw [hb0]; rfl
          have m4' : w'.mu4 k = 2 * w.b.pending op0.waitsOn := by
            unfold WSys.mu4; rw [hbk]; dsimp only
            rw [ht.runs, withEnv_waitsOn]; simp [BSys.runs]
          exact lex4_of (.inr ⟨by omega, .inr ⟨by omega, .inr ⟨by omega, by omega⟩⟩⟩)
        · have m2 : w.mu2 k = 0 := by unfold WSys.mu2; rw [hb0]
          have m3 : w.mu3 k = 1 := by unfold WSys.mu3; rw [hb0]
          rw [hbig] at m2'
          simp at m2'
          exact lex4_of (.inr ⟨by omega, .inr ⟨by omega, .inl (by omega)⟩⟩)
      · -- it returns
        rw [if_neg hbl] at hbk
        have m2' : w'.mu2 k = 0 := by unfold WSys.mu2; rw [hbk]
        have m3' : w'.mu3 k = 1 := by unfold WSys.mu3; rw [hbk]
        cases hbig : op.bigRead w.sys.ring.n with
        | true =>
          rcases ht.big hbig hbl with hne | ⟨hd', os', e1, e2, e3⟩
          · have := List.length_pos_iff.2 hne
            exact lex4_of (.inl (by omega))
          · -- a non-blocking reader found nothing
            subst e3
            rcases hx with ⟨op0, env, os, rfl, hb0, rfl, _⟩ | ⟨os, rfl, _, hb0, _, hd2, e4, e5, e6⟩
            · exfalso
              obtain ⟨_, _, _, rfl⟩ := farm_waits h.any hf hb0
              obtain ⟨sp, hrep⟩ := h.any.state
              obtain ⟨_, _, sh, g1, g2⟩ := hrep.inv.blk _ _ _ hb0
              obtain ⟨sh', c1, c2⟩ := hrep.inv.rel.live e1
              rw [g1] at c1; cases c1
              rw [c2.flags] at e2
              rcases g2 with ⟨_, _, g3⟩ | ⟨g3, _⟩
              · rw [e2] at g3; cases g3
              · cases g3
            · rw [e1] at e4; cases e4
              have m2 : w.mu2 k = 0 := by unfold WSys.mu2; rw [hb0]
              have m3 : w.mu3 k = 1 := by unfold WSys.mu3; rw [hb0]
              have s4 := sumTo_upd (f := w.mu4) (g := w'.mu4) hk (by
                intro j hj
                exact mu4_other h hs.clean ht.runs hj ht.avoid (by
                  intro x hx i os2 e
                  simp only [List.mem_singleton] at hx
                  subst hx; cases e) (hbo j hj) (ht.other j hj))
              have m4 : w.mu4 k = w.b.pending (2 * k) := by unfold WSys.mu4; rw [hb0]; dsimp only; rw [e1]; dsimp only; rw [e5, e2]; rfl
              have hpos : 1 ≤ w.b.pending (2 * k) := by
                rcases e6 with e6 | e6
                · rw [e2] at e6; cases e6
                · exact e6
              have m4' : w'.mu4 k = 0 := by
                obtain ⟨sp, hrep⟩ := h.any.state
                obtain ⟨sh', d1, d2⟩ := hrep.inv.rel.live e1
                obtain ⟨⟨t, e7⟩, _⟩ := hrep.inv.rdl k sh' d1 (by rw [← d2.flags]; exact e5)
                have hok : (w.b.step (.force (2 * k) false os')).2 = true := hs.ok.1 (hS k _ (by simp [BOp.forces]))
                have := (force_pending h.breach e7 hok).2
                rw [hlive] at e1; cases e1
                unfold WSys.mu4
                rw [hbk]; dsimp only
                rw [c1]; dsimp only
                rw [c2, e5, e2, ht.runs]
                rcases Nat.eq_zero_or_pos ((w.b.step (.force (2 * k) false os')).1.pending (2 * k)) with h0 | h0
                · exact h0
                · exact absurd (this.1 h0) (by decide)
              exact lex4_of (.inr ⟨by omega, .inr ⟨by omega, .inr ⟨by omega, by omega⟩⟩⟩)
        | false =>
          rcases hx with ⟨op0, env, os, rfl, hb0, rfl, _⟩ | ⟨os, rfl, _, hb0, hb1, _⟩
          · have m2 : w.mu2 k = 1 := by
              unfold WSys.mu2; rw [hb0]; dsimp only
              have : op0.bigRead w.sys.ring.n = (op0.withEnv env).bigRead w.sys.ring.n := by cases op0 <;> rfl
              rw [this, hbig]; rfl
            exact lex4_of (.inr ⟨by omega, .inl (by omega)⟩)
          · rw [hb1] at hbig; cases hbig
    · intro j hj
      rw [ht.other j (by omega)]
      exact hN j hj

end Shr
