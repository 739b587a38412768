import Verif.Proof.WakeInv
/-! # Ring and block/wake together, part 4: all steps keep the invariant -/
namespace Shr

/-- A handle that a step leaves open.  `C`: the conditions under which nothing pending gets lost. -/
structure Framed (pid : Nat → Nat) (w w' : WSys) (sp : Spec) (j : Nat) (sh : SHandle) (C : Prop) : Prop where
  old : sp.hs j = .live sh
  wt : ∀ i h t, i = 2 * j ∨ i = 2 * j + 1 → w.b.ts i = some (.wait h (pid j) t) → w'.b.ts i = some (.wait h (pid j) t)
  wk : ∀ i h v, i = 2 * j ∨ i = 2 * j + 1 → w.b.ts i = some (.wake h (pid j) v) → ∃ v, w'.b.ts i = some (.wake h (pid j) v)
  nn : ∀ i, i = 2 * j ∨ i = 2 * j + 1 → w.b.ts i = none → w'.b.ts i = none
  pend : C → (w'.blk j = w.blk j ∧ ∀ i h t, i = 2 * j ∨ i = 2 * j + 1 → w.b.ts i = some (.wait h (pid j) t) → w.b.pending i ≤ w'.b.pending i) ∨
    ((∀ op, w'.blk j ≠ some (op, false)) ∧ (sh.flags.has SHR_RDONLY = true → sh.flags.has SHR_NONBLOCK = false))

/-- A handle that a step opens. -/
structure Fresh (pid : Nat → Nat) (w' : WSys) (sp : Spec) (j : Nat) (sh : SHandle) (C : Prop) : Prop where
  blk : w'.blk j = none
  canw : sh.flags.has SHR_WRONLY = true → sh.flags.has SHR_NONBLOCK = false → sp.drop = false → sh.canWait = true
  rdl : sh.flags.has SHR_RDONLY = true → (∃ t, w'.b.ts (2 * j) = some (.wait 0 (pid j) t)) ∧
    (∃ v, w'.b.ts (2 * j + 1) = some (.wake 1 (pid j) v)) ∧ (C → sp.readable sh ≠ [] → 1 ≤ w'.b.pending (2 * j))
  wrl : sh.flags.has SHR_WRONLY = true →
    (∃ v, w'.b.ts (2 * j) = some (.wake 0 (pid j) v)) ∧ (sh.canWait = true → ∃ t, w'.b.ts (2 * j + 1) = some (.wait 1 (pid j) t)) ∧
    (sh.canWait = false → w'.b.ts (2 * j + 1) = none)

theorem frame_inv {a : InitArgs} {pid : Nat → Nat} {w w' : WSys} {sp sp' : Spec} (hw : TInv a pid w sp) (hrel : Rel w'.sys sp')
    (hle : SpLe sp sp') (h1 : sp'.tlog = sp.tlog) (h2 : sp'.base = sp.base) (h3 : sp'.first = sp.first)
    (h4 : sp'.app.length = sp.app.length) {C : Prop}
    (hhs : ∀ j sh, sp'.hs j = .live sh → Framed pid w w' sp j sh C ∨ Fresh pid w' sp' j sh C)
    (hblk : ∀ j op b, w'.blk j = some (op, b) → (∃ b', w.blk j = some (op, b')) ∧ ∀ sh, sp.hs j = .live sh → sp'.hs j = .live sh) :
    TInv a pid w' sp' ∧ (C → Keeps w sp w' sp') := by
  have hdrop : sp'.drop = sp.drop := by unfold Spec.drop; rw [hle.gf]
  have hun : sp'.unread = sp.unread := by unfold Spec.unread Spec.log; rw [h1, h3]
  refine ⟨?_, fun hC => ⟨fun k P hj1 => ?_, fun k hj2 => ?_⟩⟩
  · constructor
    case rel => exact hrel
    case cap => rw [hle.cap, hw.cap]
    case maxm => rw [hle.maxm, hw.maxm]
    case gf => rw [hle.gf, hw.gf]
    case app => rw [h4, hw.app]
    case canw =>
      intro k sh hs g1 g2 g3
      rcases hhs k sh hs with f | f
      · exact hw.canw k sh f.old g1 g2 (hdrop ▸ g3)
      · exact f.canw g1 g2 g3
    case rdl =>
      intro k sh hs g1
      rcases hhs k sh hs with f | f
      · obtain ⟨⟨t, ht⟩, v, hv⟩ := hw.rdl k sh f.old g1
        exact ⟨⟨t, f.wt _ _ _ (.inl rfl) ht⟩, f.wk _ _ _ (.inr rfl) hv⟩
      · obtain ⟨e1, e2, _⟩ := f.rdl g1; exact ⟨e1, e2⟩
    case wrl =>
      intro k sh hs g1
      rcases hhs k sh hs with f | f
      · obtain ⟨⟨t, ht⟩, e1, e2⟩ := hw.wrl k sh f.old g1
        refine ⟨f.wk _ _ _ (.inl rfl) ht, fun h => ?_, fun h => f.nn _ (.inr rfl) (e2 h)⟩
        obtain ⟨t, ht⟩ := e1 h
        exact ⟨t, f.wt _ _ _ (.inr rfl) ht⟩
      · exact f.wrl g1
    case blk =>
      intro k op b hb
      obtain ⟨⟨b', e⟩, hk⟩ := hblk k op b hb
      obtain ⟨e1, e2, sh, e3, e4⟩ := hw.blk k op b' e
      exact ⟨e1, e2, sh, hk sh e3, e4.mono hle⟩
  · intro sh hs g1 g2 g3
    rcases hhs k sh hs with f | f
    · rcases f.pend hC with ⟨p1, p2⟩ | ⟨p1, p2⟩
      · rw [p1] at g2
        obtain ⟨⟨t, ht⟩, _⟩ := hw.rdl k sh f.old g1
        refine Nat.le_trans (hj1 sh f.old g1 g2 ?_) (p2 _ _ _ (.inl rfl) ht)
        rw [← readable_congr hle.gf h1 h2 h3 rfl]; exact g3
      · rcases g2 with g2 | ⟨op, g2⟩
        · rw [p2 g1] at g2; cases g2.2
        · exact absurd g2 (p1 op)
    · exact (f.rdl g1).2.2 hC g3
  · intro op sh hb g1 hs g2
    rcases hhs k sh hs with f | f
    · rcases f.pend hC with ⟨p1, p2⟩ | ⟨p1, p2⟩
      · rw [p1] at hb
        rw [hle.cap, hle.maxm, hun] at g2
        obtain ⟨_, _, sh2, e1, e2⟩ := hw.blk k op false hb
        rw [f.old] at e1; cases e1
        rcases e2 with ⟨⟨_, _, _, _, e⟩, _⟩ | ⟨_, e3, e4, _⟩
        · rw [e] at g1; cases g1
        obtain ⟨t, ht⟩ := (hw.wrl k sh f.old e3).2.1 e4
        exact Nat.le_trans (hj2 op sh hb g1 f.old g2) (p2 _ _ _ (.inr rfl) ht)
      · exact absurd hb (p1 op)
    · rw [f.blk] at hb; cases hb

/-- Handles whose `bw_t`s are not concerned. -/
theorem framed_of {pid : Nat → Nat} {w w' : WSys} {sp : Spec} {ops : List BOp}
    (hb : w'.b = w.b.runs ops) {j : Nat} {sh : SHandle} (hj : sp.hs j = .live sh) (hblk : w'.blk j = w.blk j)
    (hav : ∀ x ∈ ops, ∀ i, i = 2 * j ∨ i = 2 * j + 1 → x.avoids i (pid j) ∧ ∀ p, x.avoids i p ∨ ∃ q, x = .exit q) :
    Framed pid w w' sp j sh (BInv w.b ∧ w.b.CleanRun ops) := by
  constructor
  case old => exact hj
  case wt =>
    intro i h t hi e
    rw [hb]
    exact runs_wait e (fun x hx => (hav x hx i hi).1)
  case wk =>
    intro i h v hi e
    rw [hb]
    exact runs_mode e (fun x hx => (hav x hx i hi).1)
  case nn =>
    intro i hi e
    rw [hb]
    exact runs_none e (fun x hx => (hav x hx i hi).2)
  case pend =>
    intro hC
    refine .inl ⟨hblk, fun i h t hi e => ?_⟩
    rw [hb]
    exact (runs_pending hC.1 hC.2 e (fun x hx => (hav x hx i hi).1)).2.1

/-! ## shr_open -/

theorem obw_own {b : BSys} {k p : Nat} {flags : Flags} {need : Bool} {u : Nat} {os : WOs} :
    ∀ x ∈ (open_blockwake b k p flags need u os).1, ∀ i q, i ≠ 2 * k → i ≠ 2 * k + 1 → x.avoids i q := by
  intro x hx i q h1 h2
  unfold open_blockwake at hx
  dsimp only at hx
  repeat' split at hx
  all_goals
    simp only [List.mem_cons, List.not_mem_nil, or_false] at hx
    rcases hx with rfl | rfl | rfl | rfl | rfl <;>
      first | exact fun h => h1 h.symm | exact fun h => h2 h.symm

theorem obw_ok {b : BSys} {k p : Nat} {flags : Flags} {need : Bool} {u : Nat} {os : WOs}
    (hok : (open_blockwake b k p flags need u os).2 = true) :
    (flags.has SHR_RDONLY = true → (∃ t, (b.runs (open_blockwake b k p flags need u os).1).ts (2 * k) = some (.wait 0 p t)) ∧
      (∃ v, (b.runs (open_blockwake b k p flags need u os).1).ts (2 * k + 1) = some (.wake 1 p v)) ∧
      (BInv b ∧ b.CleanRun (open_blockwake b k p flags need u os).1 →
        (1 ≤ (b.runs (open_blockwake b k p flags need u os).1).pending (2 * k) ↔ u ≠ 0))) ∧
    (flags.has SHR_RDONLY = false → (∃ v, (b.runs (open_blockwake b k p flags need u os).1).ts (2 * k) = some (.wake 0 p v)) ∧
      (need = true → ∃ t, (b.runs (open_blockwake b k p flags need u os).1).ts (2 * k + 1) = some (.wait 1 p t)) ∧
      (need = false → b.ts (2 * k + 1) = none → (b.runs (open_blockwake b k p flags need u os).1).ts (2 * k + 1) = none)) := by
  cases hr : flags.has SHR_RDONLY
  · refine ⟨(fun h => nomatch h), fun _ => ?_⟩
    unfold open_blockwake at hok ⊢
    dsimp only at hok ⊢
    rw [if_neg (by simp [hr])] at hok ⊢
    cases h1 : (b.step (.openWake (2 * k) 0 p os.o1)).2
    · rw [if_pos h1] at hok; cases hok
    · rw [if_neg (by simp [h1])] at hok ⊢
      obtain ⟨v, hv⟩ := openWake_ok h1
      cases need
      · refine ⟨⟨v, hv⟩, (fun h => nomatch h), fun _ hn => ?_⟩
        exact runs_none (ops := [.openWake (2 * k) 0 p os.o1]) hn (fun x hx q => by
          simp only [List.mem_singleton] at hx; subst hx; left; show 2 * k ≠ 2 * k + 1; omega)
      · rw [if_pos rfl] at hok ⊢
        cases h2 : ((b.step (.openWake (2 * k) 0 p os.o1)).1.step (.openWait (2 * k + 1) 1 p os.o2)).2
        · rw [if_pos h2] at hok; cases hok
        · rw [if_neg (by simp [h2])] at hok ⊢
          obtain ⟨t, ht⟩ := openWait_ok h2
          obtain ⟨v', hv'⟩ := step_mode (op := .openWait (2 * k + 1) 1 p os.o2) hv (show 2 * k + 1 ≠ 2 * k by omega)
          exact ⟨⟨v', hv'⟩, fun _ => ⟨t, ht⟩, fun h => nomatch h⟩
  · refine ⟨fun _ => ?_, fun h => nomatch h⟩
    unfold open_blockwake at hok ⊢
    dsimp only at hok ⊢
    rw [if_pos hr] at hok ⊢
    by_cases h12 : (b.step (.openWait (2 * k) 0 p os.o1)).2 = false ∨ ((b.step (.openWait (2 * k) 0 p os.o1)).1.step (.openWake (2 * k + 1) 1 p os.o2)).2 = false
    · rw [if_pos h12] at hok; cases hok
    · rw [if_neg h12] at hok ⊢
      simp only [not_or, Bool.not_eq_false] at h12
      generalize hx : BOp.force (2 * k) (decide (u ≠ 0)) os.o3 = f at *
      by_cases h3 : (((b.step (.openWait (2 * k) 0 p os.o1)).1.step (.openWake (2 * k + 1) 1 p os.o2)).1.step f).2 = false
      · rw [if_pos h3] at hok; cases hok
      · rw [if_neg h3] at hok ⊢
        simp only [Bool.not_eq_false] at h3
        obtain ⟨t, ht⟩ := openWait_ok h12.1
        obtain ⟨v, hv⟩ := openWake_ok h12.2
        have ht' := runs_wait (ops := [.openWake (2 * k + 1) 1 p os.o2]) ht (by
          intro x hx; simp only [List.mem_singleton] at hx; subst hx; show 2 * k + 1 ≠ 2 * k; omega)
        subst hx
        have g1 : (((b.step (.openWait (2 * k) 0 p os.o1)).1.step (.openWake (2 * k + 1) 1 p os.o2)).1.step (.force (2 * k) (decide (u ≠ 0)) os.o3)).1.ts (2 * k) =
            some (.wait 0 p t) := step_waiting ht' (by intro e; cases e) (by intro e; cases e)
        obtain ⟨v', hv'⟩ := step_mode (op := .force (2 * k) (decide (u ≠ 0)) os.o3) hv (show 2 * k ≠ 2 * k + 1 by omega)
        refine ⟨⟨t, g1⟩, ⟨v', hv'⟩, ?_⟩
        rintro ⟨hb, hc⟩
        have r1 : BInv (b.step (.openWait (2 * k) 0 p os.o1)).1 := hb.step _ hc.1
        have r2 := r1.step _ hc.2.1
        have g2 := (force_pending r2 ht' h3).2
        rw [decide_eq_true_eq] at g2
        exact g2

theorem validate_mode {flags : Flags} (h : validate_flags flags = true) (hr : flags.has SHR_RDONLY = false) : flags.has SHR_WRONLY = true := by
  unfold validate_flags at h
  split at h
  · cases h
  · rename_i h1
    unfold Flags.has at hr ⊢
    cases hw : (flags &&& SHR_WRONLY != 0#32)
    · simp only [bne_eq_false_iff_eq] at hr hw
      rw [hr, hw] at h1
      exact absurd rfl h1
    · rfl

theorem open_inv {a : InitArgs} {pid : Nat → Nat} {w w' : WSys} {sp : Spec} (hw : TInv a pid w sp) {k : Nat} {flags : Flags} {env : Env} {os : WOs}
    {o : Out} {ops : List BOp} (hwf : (Op.open k flags env).WF a.appsize) (hca : w.Callable (.open k flags env))
    (hlog : sp.farm = true → (sp.step (w.fill pid os (.open k flags env))).1.log.length < W) (hat : w.attempt pid (.open k flags env) os = some (w', o, ops)) :
    TInv a pid w' (sp.step (w.fill pid os (.open k flags env))).1 ∧ (BInv w.b ∧ w.b.CleanRun ops →
      Keeps w sp w' (sp.step (w.fill pid os (.open k flags env))).1) := by
  have hwf' : (w.fill pid os (.open k flags env)).WF sp.app.length := by rw [hw.app]; exact fill_wf.2 hwf
  obtain ⟨s', hst, hrel'⟩ := step_refine hw.rel _ hwf' hlog
  have hle := step_le sp (w.fill pid os (.open k flags env))
  have happ := step_app_length _ hwf'
  have hmode : (flags.has SHR_RDONLY && flags.has SHR_WRONLY) = false := hwf
  obtain ⟨hbk, _, hts⟩ := hca
  obtain ⟨_, hts⟩ := hts k flags env rfl
  unfold WSys.attempt at hat
  rw [hst] at hat
  simp only [Option.some.injEq, Prod.mk.injEq] at hat
  obtain ⟨rfl, ho, rfl⟩ := hat
  have hnb : (sp.step (w.fill pid os (.open k flags env))).2 ≠ .blocked := by
    simp only [WSys.fill]
    unfold Spec.step; dsimp only
    split
    · split
      · simp
      · split <;> simp
    · simp
  rw [if_neg hnb] at *
  clear hst ho hnb
  have hops : ∀ o x, x ∈ w.bops pid os o (w.fill pid os (.open k flags env)) → (∀ i q, i ≠ 2 * k → i ≠ 2 * k + 1 → x.avoids i q) ∧ sp.hs k = .never := by
    intro o x hx
    simp only [WSys.fill] at hx
    unfold WSys.bops at hx; dsimp only at hx
    split at hx
    · rename_i hop
      refine ⟨obw_own x hx, ?_⟩
      unfold WSys.opens at hop
      have := hw.rel.hs k
      cases e : w.sys.hs k with
      | never => rw [e] at this; cases e2 : sp.hs k <;> rw [e2] at this <;> first | rfl | exact this.elim
      | live _ => rw [e] at hop; cases hop
      | gone _ => rw [e] at hop; cases hop
    · cases hx
  have hblk : ∀ j, upd w.blk k none j = w.blk j := by
    intro j
    by_cases hj : j = k
    · subst hj; rw [upd_same]; exact hbk.symm
    · rw [upd_other _ _ hj]
  have fr : ∀ j sh, sp.hs j = .live sh → Framed pid w
      { sys := s', b := w.b.runs (w.bops pid os (sp.step (w.fill pid os (.open k flags env))).2 (w.fill pid os (.open k flags env))),
        blk := upd w.blk (Op.open k flags env).handle none } sp j sh
      (BInv w.b ∧ w.b.CleanRun (w.bops pid os (sp.step (w.fill pid os (.open k flags env))).2 (w.fill pid os (.open k flags env)))) := by
    intro j sh hj
    refine framed_of rfl hj (hblk j) ?_
    intro x hx i hi
    obtain ⟨h1, h2⟩ := hops _ x hx
    have hjk : j ≠ k := by rintro rfl; rw [hj] at h2; cases h2
    have := fun q => h1 i q (by omega) (by omega)
    exact ⟨this _, fun q => .inl (this q)⟩
  -- what the call did
  by_cases hsucc : sp.hs k = .never ∧ validate_flags flags = true ∧
      ∃ h, sp.openH flags { env with bwOpenOk := (open_blockwake w.b k (pid k) flags (w.needR2w flags) w.sys.ring.u os).2 } = some h
  · obtain ⟨hnv, hvf, sh, hsh⟩ := hsucc
    have hsp' : (sp.step (w.fill pid os (.open k flags env))).1 = { sp with hs := upd sp.hs k (.live sh) } := by
      simp only [WSys.fill]
      unfold Spec.step; dsimp only
      rw [hnv]; dsimp only
      rw [if_neg (by simp [hvf]), hsh]
    rw [hsp'] at hrel' hle happ ⊢
    unfold Spec.openH at hsh
    dsimp only at hsh
    split at hsh
    · cases hsh
    rename_i hcond
    simp only [not_or, Bool.not_eq_false, not_and] at hcond
    obtain ⟨hlk, hml, hbw, _, _⟩ := hcond
    simp only [Option.some.injEq] at hsh
    have hgf := hw.rel.ring.gf
    have hopens : w.opens k flags { env with bwOpenOk := (open_blockwake w.b k (pid k) flags (w.needR2w flags) w.sys.ring.u os).2 } = true := by
      unfold WSys.opens
      have hh := hw.rel.hs k
      rw [hnv] at hh
      cases e : w.sys.hs k with
      | never =>
        dsimp only
        rw [hvf, hlk, hgf]
        cases hm : sp.gflags.has SHR_MLOCK
        · rfl
        · rw [hml hm]; rfl
      | live _ => rw [e] at hh; exact hh.elim
      | gone _ => rw [e] at hh; exact hh.elim
    refine frame_inv hw hrel' hle rfl rfl rfl rfl ?_ ?_
    · intro j shj hj
      by_cases hjk : j = k
      · subst hjk
        dsimp only at hj
        rw [upd_same] at hj; cases hj
        right
        have hb : w.bops pid os (sp.step (w.fill pid os (.open j flags env))).2 (w.fill pid os (.open j flags env)) =
            (open_blockwake w.b j (pid j) flags (w.needR2w flags) w.sys.ring.u os).1 := by
          simp only [WSys.fill]
          unfold WSys.bops; dsimp only
          rw [if_pos hopens]
        rw [hb]
        obtain ⟨o1, o2⟩ := obw_ok hbw
        have hneed : w.needR2w flags = (!flags.has SHR_NONBLOCK && !sp.drop) := by
          unfold WSys.needR2w Spec.drop; rw [hgf]
        subst hsh
        constructor
        case blk => exact upd_same _ _ _
        case canw =>
          dsimp only
          intro g1 g2 g3
          have g3' : sp.drop = false := g3
          rw [g1, g2, g3']; simp
        case rdl =>
          dsimp only
          intro g1
          obtain ⟨e1, e2, e3⟩ := o1 g1
          refine ⟨e1, e2, fun hC hne => (e3 hC).2 ?_⟩
          have hun : sp.unread ≠ [] := by
            intro h0
            apply hne
            have hx : ∀ (s2 : Spec) (h2 : SHandle), s2.farm = sp.farm → s2.log = sp.log → s2.base = sp.base → s2.first = sp.first → h2.pos = sp.base →
                s2.readable h2 = [] := by
              intro s2 h2 q1 q2 q3 q4 q5
              unfold Spec.readable Spec.unread
              rw [q1, q2, q3, q4, q5]
              split
              · rename_i hf
                have := (hw.rel.ring.farm hf).1
                unfold Spec.unread at h0
                rw [Nat.max_self, ← this]; exact h0
              · exact h0
            exact hx _ _ rfl rfl rfl rfl rfl
          have hu : w.sys.ring.u = bytesOf sp.unread := by rw [hw.rel.ring.rep.u, hw.rel.ring.unread_eq]
          rw [hu]
          have hcv := wreadable_ne hw.rel.ring
          have : 0 < bytesOf sp.unread := by
            apply bytesOf_pos _ hun
            intro m hm
            refine (hcv ⟨flags, sp.first, 0, [], 0, 0, false⟩ m ?_)
            unfold Spec.readable
            split
            · rename_i hf
              have := (hw.rel.ring.farm hf).1
              rw [← this, Nat.max_self]; exact hm
            · exact hm
          omega
        case wrl =>
          dsimp only
          intro g1
          have g2 : flags.has SHR_RDONLY = false := by
            cases h : flags.has SHR_RDONLY
            · rfl
            · rw [h, g1] at hmode; cases hmode
          obtain ⟨e1, e2, e3⟩ := o2 g2
          refine ⟨e1, fun h => e2 ?_, fun h => e3 ?_ hts⟩
          · rw [hneed]; rw [g2, g1] at h; simpa using h
          · rw [hneed]; rw [g2, g1] at h; simpa using h
      · left
        dsimp only at hj
        rw [upd_other _ _ hjk] at hj
        exact fr j shj hj
    · intro j op b hb
      have hb' : w.blk j = some (op, b) := by rw [← hblk j]; exact hb
      refine ⟨⟨b, hb'⟩, fun sh' hs' => ?_⟩
      have : j ≠ k := by rintro rfl; rw [hnv] at hs'; cases hs'
      dsimp only
      rw [upd_other _ _ this]; exact hs'
  · have hsp' : (sp.step (w.fill pid os (.open k flags env))).1 = sp := by
      simp only [WSys.fill]
      unfold Spec.step; dsimp only
      split
      · rename_i hnv
        split
        · rfl
        · rename_i hvf
          split
          · rfl
          · rename_i h hh
            exact absurd ⟨hnv, by simpa using hvf, h, hh⟩ hsucc
      · rfl
    rw [hsp'] at hrel' ⊢
    refine frame_inv hw hrel' ⟨rfl, rfl, rfl, Nat.le_refl _⟩ rfl rfl rfl rfl (fun j sh hj => .inl (fr j sh hj)) ?_
    intro j op b hb
    exact ⟨⟨b, by rw [← hblk j]; exact hb⟩, fun _ h => h⟩

/-! ## The other steps -/

theorem ready_ts (b : BSys) (i : Nat) (os : Os) : (b.step (.ready i os)).1.ts = b.ts := by
  unfold BSys.step BSys.ready
  dsimp only
  split <;> rfl

theorem waitsOn_own {op : Op} {k : Nat} (h : op.handle = k) : op.waitsOn = 2 * k ∨ op.waitsOn = 2 * k + 1 := by
  subst h; cases op <;> simp [Op.waitsOn, Op.handle]

/-- A suspended reader is a blocking one. -/
theorem suspended_rd {sp : Spec} {s : Sys} (hr : Rel s sp) {k : Nat} {sh : SHandle} {op : Op} (hk : sp.hs k = .live sh) (h : Suspended sp sh op) :
    sh.flags.has SHR_RDONLY = true → sh.flags.has SHR_NONBLOCK = false := by
  intro hro
  rcases h with ⟨_, _, h⟩ | ⟨_, h, _⟩
  · exact h
  · exact (hrel_mode hr hk hro h).elim

theorem inv_wakeup {a : InitArgs} {pid : Nat → Nat} {w : WSys} {sp : Spec} (hw : TInv a pid w sp) {k : Nat} {op : Op} {os : Os}
    (hb : w.blk k = some (op, false)) :
    TInv a pid { w with b := w.b.runs [.ready op.waitsOn os], blk := upd w.blk k (some (op, true)) } sp ∧ (BInv w.b →
      Keeps w sp { w with b := w.b.runs [.ready op.waitsOn os], blk := upd w.blk k (some (op, true)) } sp) := by
  obtain ⟨hh, _, sh0, hk, hsus⟩ := hw.blk k op false hb
  have hc : w.b.CleanRun [.ready op.waitsOn os] := ⟨trivial, trivial⟩
  suffices h : TInv a pid { w with b := w.b.runs [.ready op.waitsOn os], blk := upd w.blk k (some (op, true)) } sp ∧
      (BInv w.b ∧ w.b.CleanRun [.ready op.waitsOn os] →
      Keeps w sp { w with b := w.b.runs [.ready op.waitsOn os], blk := upd w.blk k (some (op, true)) } sp) from
    ⟨h.1, fun hr => h.2 ⟨hr, hc⟩⟩
  refine frame_inv (sp' := sp) hw (hrel := ?rel1) ⟨rfl, rfl, rfl, Nat.le_refl _⟩ rfl rfl rfl rfl ?_ ?_
  case rel1 => exact hw.rel
  · intro j sh hj
    left
    by_cases hjk : j = k
    · subst hjk
      rw [hk] at hj; cases hj
      have e : (w.b.runs [.ready op.waitsOn os]).ts = w.b.ts := ready_ts _ _ _
      constructor
      case old => exact hk
      case wt => intro i h t _ he; rw [e]; exact he
      case wk => intro i h t _ he; rw [e]; exact ⟨t, he⟩
      case nn => intro i _ he; rw [e]; exact he
      case pend =>
        intro _
        right
        refine ⟨fun op' => ?_, suspended_rd hw.rel hk hsus⟩
        dsimp only
        rw [upd_same]
        intro h; cases h
    · refine framed_of rfl hj (upd_other _ _ hjk) ?_
      intro x hx i hi
      simp only [List.mem_singleton] at hx; subst hx
      have hne : op.waitsOn ≠ i := by rcases waitsOn_own hh with h | h <;> omega
      exact ⟨hne, fun _ => .inl hne⟩
  · intro j op' b hj
    refine ⟨?_, fun _ h => h⟩
    by_cases hjk : j = k
    · subst hjk
      dsimp only at hj
      rw [upd_same] at hj; cases hj
      exact ⟨_, hb⟩
    · dsimp only at hj
      rw [upd_other _ _ hjk] at hj
      exact ⟨_, hj⟩

/-- Handles for which `D` holds disappear. -/
def Spec.discard (sp : Spec) (D : Nat → Bool) : Spec :=
  { sp with hs := fun k => match sp.hs k with
      | .live sh => if D k then .gone sh.pend else .live sh
      | l => l }

theorem discard_live {sp : Spec} {D : Nat → Bool} {j : Nat} {sh : SHandle} : (sp.discard D).hs j = .live sh ↔ sp.hs j = .live sh ∧ D j = false := by
  unfold Spec.discard
  dsimp only
  cases h : sp.hs j with
  | never => simp
  | gone b => simp
  | live s =>
    dsimp only
    cases hd : D j <;> simp

theorem rel_discard {s : Sys} {sp : Spec} (h : Rel s sp) (D : Nat → Bool) : Rel (s.discard D) (sp.discard D) where
  ring := by
    obtain ⟨a1, a2, a3, a4, a5, a6, a7, a8, a9, a10⟩ := h.ring
    exact ⟨a1, a2, a3, a4, a5, a6, a7, a8, a9, a10⟩
  hs := fun k => by
    have hk := h.hs k
    unfold Sys.discard Spec.discard
    dsimp only
    cases e1 : s.hs k <;> cases e2 : sp.hs k <;> rw [e1, e2] at hk <;> try exact hk.elim
    · trivial
    · dsimp only
      cases D k
      · obtain ⟨a1, a2, a3, ⟨a4, a4'⟩, a5, a6, a7, a8, a9, a10⟩ := hk
        exact ⟨a1, a2, a3, ⟨a4, a4'⟩, a5, a6, a7, a8, a9, a10⟩
      · trivial
    · trivial

theorem pendLe_discard {sp : Spec} {O : Nat} (h : PendLe sp O) (D : Nat → Bool) : PendLe (sp.discard D) O :=
  fun k sh hk => h k sh (discard_live.1 hk).1

theorem inv_interrupt {a : InitArgs} {pid : Nat → Nat} {w : WSys} {sp : Spec} (hw : TInv a pid w sp) {k : Nat} {op : Op} {e : WaitErr} {os : WOs}
    {ops : List BOp} (hb : w.blk k = some (op, false))
    (hops : ops = (if WSys.gaveUp e op = .closed ∧ os.lock2 = true then [.close (2 * k), .close (2 * k + 1)] else [])) {w' : WSys}
    (hw' : w' = { sys := if WSys.gaveUp e op = .closed then w.sys.discard (fun j => j == k) else w.sys, b := w.b.runs ops, blk := upd w.blk k none }) :
    TInv a pid w' (if WSys.gaveUp e op = .closed then sp.discard (fun j => j == k) else sp) ∧ (BInv w.b ∧ w.b.CleanRun ops →
      Keeps w sp w' (if WSys.gaveUp e op = .closed then sp.discard (fun j => j == k) else sp)) := by
  subst hw'
  obtain ⟨hh, _, sh0, hk, hsus⟩ := hw.blk k op false hb
  have hblk : ∀ j op' b, upd w.blk k none j = some (op', b) → j ≠ k ∧ w.blk j = some (op', b) := by
    intro j op' b h
    by_cases hjk : j = k
    · subst hjk; rw [upd_same] at h; cases h
    · rw [upd_other _ _ hjk] at h; exact ⟨hjk, h⟩
  have hother : ∀ (s' : Sys) j sh, j ≠ k → sp.hs j = .live sh →
      Framed pid w { sys := s', b := w.b.runs ops, blk := upd w.blk k none } sp j sh (BInv w.b ∧ w.b.CleanRun ops) := by
    intro s' j sh hjk hj
    refine framed_of rfl hj (upd_other _ _ hjk) ?_
    intro x hx i hi
    rw [hops] at hx
    split at hx
    · simp only [List.mem_cons, List.not_mem_nil, or_false] at hx
      have : ∀ p, x.avoids i p := by
        intro p
        rcases hx with rfl | rfl
        · show 2 * k ≠ i; omega
        · show 2 * k + 1 ≠ i; omega
      exact ⟨this _, fun p => .inl (this p)⟩
    · cases hx
  by_cases hcl : WSys.gaveUp e op = .closed
  · simp only [if_pos hcl]
    refine frame_inv (sp' := sp.discard (fun j => j == k)) hw (hrel := ?rel2) ⟨rfl, rfl, rfl, Nat.le_refl _⟩ rfl rfl rfl rfl ?_ ?_
    case rel2 => exact rel_discard hw.rel _
    · intro j sh hj
      obtain ⟨hj, hjk⟩ := discard_live.1 hj
      exact .inl (hother _ j sh (by simpa using hjk) hj)
    · intro j op' b hj
      obtain ⟨hjk, hj⟩ := hblk j op' b hj
      exact ⟨⟨b, hj⟩, fun sh hs => discard_live.2 ⟨hs, by simpa using hjk⟩⟩
  · simp only [if_neg hcl]
    rw [if_neg (fun h => hcl h.1)] at hops
    refine frame_inv (sp' := sp) hw (hrel := ?rel3) ⟨rfl, rfl, rfl, Nat.le_refl _⟩ rfl rfl rfl rfl ?_ ?_
    case rel3 => exact hw.rel
    · intro j sh hj
      left
      by_cases hjk : j = k
      · subst hjk
        rw [hk] at hj; cases hj
        subst hops
        constructor
        case old => exact hk
        case wt => intro i h t _ he; exact he
        case wk => intro i h t _ he; exact ⟨t, he⟩
        case nn => intro i _ he; exact he
        case pend =>
          intro _
          right
          refine ⟨fun op' => ?_, suspended_rd hw.rel hk hsus⟩
          dsimp only
          rw [upd_same]
          intro h; cases h
      · exact hother _ j sh hjk hj
    · intro j op' b hj
      obtain ⟨_, hj⟩ := hblk j op' b hj
      exact ⟨⟨b, hj⟩, fun _ h => h⟩

theorem inv_kill {a : InitArgs} {pid : Nat → Nat} {w : WSys} {sp : Spec} (hw : TInv a pid w sp) (p : Nat) {w' : WSys}
    (hw' : w' =
      { sys := w.sys.discard (fun j => pid j == p)
        b := w.b.runs [.exit p]
        blk := fun j => match w.sys.hs j with
          | .live _ => if pid j = p then none else w.blk j
          | _ => w.blk j }) :
    TInv a pid w' (sp.discard (fun j => pid j == p)) ∧ (BInv w.b ∧ w.b.CleanRun [.exit p] →
      Keeps w sp w' (sp.discard (fun j => pid j == p))) := by
  subst hw'
  have hlive : ∀ j sh, sp.hs j = .live sh → ∃ h, w.sys.hs j = .live h := by
    intro j sh hj
    have := hw.rel.hs j
    rw [hj] at this
    cases e : w.sys.hs j with
    | never => rw [e] at this; exact this.elim
    | gone b => rw [e] at this; exact this.elim
    | live h => exact ⟨h, rfl⟩
  refine frame_inv (sp' := sp.discard (fun j => pid j == p)) hw (hrel := ?rel4) ⟨rfl, rfl, rfl, Nat.le_refl _⟩ rfl rfl rfl rfl ?_ ?_
  case rel4 => exact rel_discard hw.rel _
  · intro j sh hj
    obtain ⟨hj, hjk⟩ := discard_live.1 hj
    have hp : pid j ≠ p := by simpa using hjk
    obtain ⟨h, hh⟩ := hlive j sh hj
    refine .inl (framed_of rfl hj ?_ ?_)
    · dsimp only; rw [hh]; dsimp only; rw [if_neg hp]
    · intro x hx i hi
      simp only [List.mem_singleton] at hx; subst hx
      exact ⟨fun h => hp h.symm, fun _ => .inr ⟨p, rfl⟩⟩
  · intro j op b hj
    dsimp only at hj
    have : ∃ b', w.blk j = some (op, b') := by
      split at hj
      · split at hj
        · cases hj
        · exact ⟨b, hj⟩
      · exact ⟨b, hj⟩
    refine ⟨this, fun sh hs => discard_live.2 ⟨hs, ?_⟩⟩
    obtain ⟨h, hh⟩ := hlive j sh hs
    rw [hh] at hj
    dsimp only at hj
    split at hj
    · cases hj
    · rename_i hp; simpa using hp

end Shr
