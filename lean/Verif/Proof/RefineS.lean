import Verif.Proof.RefineH
/-! # Refinement, part 4: flush, close, open, status, app data, and whole histories -/
namespace Shr

/-- A flush behaves as specified. -/
theorem shr_flush_spec {r : Ring} {sp : Spec} (hr : RingRel r sp) {h : Handle} {sh : SHandle}
    (hh : HRel sp h sh) (hw : sh.flags.has SHR_WRONLY = true) (k : Nat) (wait : Bool) (env : Env)
    (hlog : sp.farm = true → (sp.flush k sh wait env).1.log.length < W) :
    Ok (shr_flush h wait env) r (fun _ => True) (fun x r' =>
      x.2.res = (sp.flush k sh wait env).2.2 ∧
      RingRel r' (sp.flush k sh wait env).1 ∧
      HRel (sp.flush k sh wait env).1 x.1 (sp.flush k sh wait env).2.1) := by
  obtain ⟨fl, cur, c, n, mm, r2w⟩ := h
  have hfl : fl = sh.flags := hh.flags
  subst hfl
  have hr2w : r2w = sh.canWait := hh.r2w
  subst hr2w
  unfold shr_flush
  apply Ok.assert_bind hw
  by_cases hp : sh.pend = []
  · rw [if_pos (hh.cache.n_zero.mpr hp)]
    have e : sp.flush k sh wait env = (sp, sh, .ret 0) := by simp only [Spec.flush, if_pos hp]
    rw [e]
    exact Ok.pure ⟨rfl, hr, hh⟩
  rw [if_neg (fun x => hp (hh.cache.n_zero.mp x))]
  have hfb := hh.buffered hp
  have hpl := hh.pend_legal hp
  cases ht : (sh.flags.has SHR_NONBLOCK && wait)
  · -- plain flush
    have hnb : (sh.flags.has SHR_NONBLOCK && !wait) = sh.flags.has SHR_NONBLOCK := by
      cases h1 : sh.flags.has SHR_NONBLOCK <;> cases h2 : wait <;> simp [h1, h2] at ht ⊢
    have e : sp.flush k sh wait env =
        (let x := sp.tryWrite k (sh.flags.has SHR_NONBLOCK) sh.pend env
         (x.1, match x.2 with
          | .ret rc => if rc > 0 then { sh with pend := [] } else sh
          | .wait => sh, x.2)) := by
      simp only [Spec.flush, if_neg hp, ht, hnb, Bool.false_eq_true, false_and, if_false, Bool.or_false]
      generalize sp.tryWrite k (sh.flags.has SHR_NONBLOCK) sh.pend env = X
      obtain ⟨_, w⟩ := X
      cases w <;> rfl
    rw [e] at hlog ⊢
    clear e
    simp only [Bool.false_eq_true, false_and, if_false]
    apply Ok.bind
    have hfs := flushCache_spec (who := k) (env := env) hr hh.n hh.mm hh.cache hfb.2 hpl hh.csz hlog
    refine hfs.mono (fun _ _ => trivial) ?_
    rintro o r1 ⟨ho, hr1⟩
    have hsl := SpLe.tryWrite sp k (sh.flags.has SHR_NONBLOCK) sh.pend env
    dsimp only at hr1 ho hsl hlog ⊢
    generalize sp.tryWrite k (sh.flags.has SHR_NONBLOCK) sh.pend env = X at *
    obtain ⟨sp1, w⟩ := X
    dsimp only at hr1 ho hsl hlog ⊢
    subst ho
    rw [clear_set_BUFFERED _ hfb.1]
    apply Ok.pure
    have hh1 := hh.mono hsl
    cases o with
    | wait => exact ⟨rfl, hr1, hh1⟩
    | ret rc wk =>
      dsimp only [WrOut.res]
      by_cases hrc : rc > 0
      · simp only [if_pos hrc]
        exact ⟨trivial, hr1, hh1.cleared⟩
      · simp only [if_neg hrc]
        exact ⟨trivial, hr1, hh1⟩
  · -- toggled
    have ht' := ht
    simp only [Bool.and_eq_true] at ht'
    obtain ⟨hnbf, rfl⟩ := ht'
    have hb15 : sh.flags.getLsbD 15 = true := by rw [← has_NONBLOCK]; exact hnbf
    have hback : (sh.flags.clear SHR_NONBLOCK).set SHR_NONBLOCK = sh.flags := clear_set_NONBLOCK _ hb15
    simp only [if_true, true_and]
    by_cases hbad : sh.canWait = false ∧ (env.lockOk = false ∨ env.bwOpenOk = false)
    · have e : sp.flush k sh true env = (sp, sh, .ret (-1)) := by
        simp only [Spec.flush, if_neg hp, ht, true_and, if_pos hbad]
      rw [e, if_pos hbad, hback]
      exact Ok.pure ⟨rfl, hr, hh⟩
    · have e : sp.flush k sh true env =
          (let x := sp.tryWrite k false sh.pend env
           (x.1, match x.2 with
            | .ret rc => if rc > 0 then { sh with canWait := true, pend := [] } else { sh with canWait := true }
            | .wait => { sh with canWait := true }, x.2)) := by
        simp only [Spec.flush, if_neg hp, ht, true_and, if_neg hbad, Bool.not_true, Bool.and_false, Bool.or_true]
        generalize sp.tryWrite k false sh.pend env = X
        obtain ⟨_, w⟩ := X
        cases w <;> rfl
      rw [e] at hlog ⊢
      clear e
      rw [if_neg hbad]
      have hw14 : (sh.flags.clear SHR_NONBLOCK).getLsbD 14 = true := by
        rw [clear_NONBLOCK _ _ (by decide), hfb.2]; rfl
      have hb16 : (sh.flags.clear SHR_NONBLOCK).getLsbD 16 = true := by
        rw [clear_NONBLOCK _ _ (by decide), hfb.1]; rfl
      have hnbc : (sh.flags.clear SHR_NONBLOCK).has SHR_NONBLOCK = false := by
        rw [has_NONBLOCK, clear_NONBLOCK _ _ (by decide)]; simp
      apply Ok.bind
      have hfs := flushCache_spec (h := ⟨sh.flags.clear SHR_NONBLOCK, cur, c, n, mm, true⟩) (who := k) (env := env) hr hh.n hh.mm hh.cache hw14 hpl hh.csz (by rw [hnbc]; exact hlog)
      rw [hnbc] at hfs
      refine hfs.mono (fun _ _ => trivial) ?_
      rintro o r1 ⟨ho, hr1⟩
      have hsl := SpLe.tryWrite sp k false sh.pend env
      generalize sp.tryWrite k false sh.pend env = X at *
      obtain ⟨sp1, w⟩ := X
      dsimp only at hr1 ho hsl hlog ⊢
      subst ho
      rw [clear_set_BUFFERED _ hb16]
      apply Ok.pure
      have hh1 := hh.mono hsl
      have hh2 : HRel sp1 { flags := sh.flags, cur := cur, c := c, n := n, mm := mm, hasR2w := true }
          { sh with canWait := true } :=
        ⟨rfl, hh1.n, hh1.mm, ⟨hh1.cur.1, hh1.cur.2⟩, hh1.cache, hh1.csz, hh1.cvt, hh1.nbuf, rfl, hh1.mode⟩
      cases o with
      | wait => dsimp only [WrOut.res]; rw [hback]; exact ⟨rfl, hr1, hh2⟩
      | ret rc wk =>
        dsimp only [WrOut.res]
        by_cases hrc : rc > 0
        · simp only [if_pos hrc, hback]
          exact ⟨trivial, hr1, hh2.cleared⟩
        · simp only [if_neg hrc, hback]
          exact ⟨trivial, hr1, hh2⟩

/-- The final flush of `shr_close`. -/
theorem shr_close_spec {r : Ring} {sp : Spec} (hr : RingRel r sp) {h : Handle} {sh : SHandle}
    (hh : HRel sp h sh) (k : Nat) (env : Env)
    (hlog : sp.farm = true → (sp.flush k sh false env).1.log.length < W) :
    Ok (shr_close h env) r (fun _ => True) (fun x r' =>
      x.res = (sp.flush k sh false env).2.2 ∧ RingRel r' (sp.flush k sh false env).1) := by
  unfold shr_close
  by_cases hp : sh.pend = []
  · rw [if_neg (by simp [hh.cache.n_zero.mpr hp])]
    have e : sp.flush k sh false env = (sp, sh, .ret 0) := by simp only [Spec.flush, if_pos hp]
    rw [e]
    exact Ok.pure ⟨rfl, hr⟩
  · rw [if_pos (fun x => hp (hh.cache.n_zero.mp x))]
    apply Ok.bind
    have hfb := hh.buffered hp
    refine (shr_flush_spec hr hh (by rw [has_WRONLY]; exact hfb.2) k false env hlog).mono (fun _ _ => trivial) ?_
    rintro x r' ⟨h1, h2, _⟩
    exact Ok.pure ⟨h1, h2⟩

theorem SpLe.flush (sp : Spec) (k : Nat) (sh : SHandle) (wait : Bool) (env : Env) :
    SpLe sp (sp.flush k sh wait env).1 := by
  unfold Spec.flush
  split
  · exact SpLe.refl _
  · dsimp only
    split
    · exact SpLe.refl _
    · exact SpLe.tryWrite _ _ _ _ _

theorem flush_hs (sp : Spec) (k : Nat) (sh : SHandle) (wait : Bool) (env : Env) :
    (sp.flush k sh wait env).1.hs = sp.hs := by
  unfold Spec.flush
  split
  · rfl
  · dsimp only
    split
    · rfl
    · exact tryWrite_hs _ _ _ _ _

theorem SpLe.writev (sp : Spec) (k : Nat) (sh : SHandle) (iov : List Msg) (envF env : Env) :
    SpLe sp (sp.writev k sh iov envF env).1 := by
  unfold Spec.writev
  dsimp only
  repeat' split
  all_goals first
    | exact SpLe.refl _
    | exact SpLe.tryWrite _ _ _ _ _
    | exact (SpLe.tryWrite _ _ _ _ _).trans (SpLe.tryWrite _ _ _ _ _)

theorem writev_hs (sp : Spec) (k : Nat) (sh : SHandle) (iov : List Msg) (envF env : Env) :
    (sp.writev k sh iov envF env).1.hs = sp.hs := by
  unfold Spec.writev
  dsimp only
  repeat' split
  all_goals first
    | rfl
    | exact tryWrite_hs _ _ _ _ _
    | exact (tryWrite_hs _ _ _ _ _).trans (tryWrite_hs _ _ _ _ _)

theorem SpLe.readv (sp : Spec) (sh : SHandle) (buf : List Byte) (niov : Nat) (env : Env) :
    SpLe sp (sp.readv sh buf niov env).1 := by
  unfold Spec.readv
  dsimp only
  repeat' split
  all_goals first
    | exact SpLe.refl _
    | exact ⟨rfl, rfl, rfl, Nat.le_refl _⟩

theorem readv_hs (sp : Spec) (sh : SHandle) (buf : List Byte) (niov : Nat) (env : Env) :
    (sp.readv sh buf niov env).1.hs = sp.hs := by
  unfold Spec.readv
  dsimp only
  repeat' split
  all_goals rfl

/-- `shr_readv` on a handle. -/
theorem shr_readv_spec {r : Ring} {sp : Spec} (hr : RingRel r sp) {h : Handle} {sh : SHandle}
    (hh : HRel sp h sh) (hrd : sh.flags.has SHR_RDONLY = true) (buf : List Byte) (hbl : buf.length < W)
    (niov : Nat) (env : Env) :
    Ok (shr_readv h buf buf.length niov env) r (fun _ => True) (fun x r' =>
      x.2.out = (sp.readv sh buf niov env).2.2 ∧
      RingRel r' (sp.readv sh buf niov env).1 ∧
      HRel (sp.readv sh buf niov env).1 x.1 (sp.readv sh buf niov env).2.1) := by
  unfold shr_readv
  apply Ok.bind
  rw [hh.flags]
  refine (readvAttempt_spec hr hh.cur hrd (hh.nowr hrd) buf hbl niov env).mono (fun _ _ => trivial) ?_
  rintro ⟨c, o⟩ r' ⟨h1, h2, h3, _⟩
  apply Ok.pure
  refine ⟨h1, h2, ?_⟩
  have hsl := SpLe.readv sp sh buf niov env
  have hsame : (sp.readv sh buf niov env).2.1.flags = sh.flags ∧
      (sp.readv sh buf niov env).2.1.pend = sh.pend ∧ (sp.readv sh buf niov env).2.1.csz = sh.csz ∧
      (sp.readv sh buf niov env).2.1.cvt = sh.cvt ∧ (sp.readv sh buf niov env).2.1.canWait = sh.canWait := by
    unfold Spec.readv Spec.catchUp
    dsimp only
    repeat' split
    all_goals exact ⟨rfl, rfl, rfl, rfl, rfl⟩
  obtain ⟨e1, e2, e3, e4, e5⟩ := hsame
  refine ⟨e1.symm, hh.n.trans hsl.cap.symm, hh.mm.trans hsl.maxm.symm, h3, ?_, ?_, ?_, ?_, ?_, by rw [e1]; exact hh.mode⟩
  · rw [e2, e3, e4]; exact hh.cache
  · rw [e3, hsl.cap]; exact hh.csz
  · rw [e4, hsl.maxm]; exact hh.cvt
  · rw [e1, e3]; exact hh.nbuf
  · rw [e5]; exact hh.r2w

/-! ## Status and app data -/

theorem toStat_start (t : Timeval) : ({ start := t } : Stat) = ({ start := t } : SStat).toStat := rfl

theorem shr_stat_spec {r : Ring} {sp : Spec} (hr : RingRel r sp) {h : Handle} {sh : SHandle}
    (hh : HRel sp h sh) (reset : Option Timeval) (env : Env) (hlk : env.lockOk = true) :
    Ok (shr_stat h reset env) r (fun _ => True) (fun x r' =>
      x = (if sp.gflags.has SHR_SYNC ∧ env.syncOk = false then -1 else 0, some (sp.statOf sh)) ∧
      RingRel r' (match reset with
        | some t => { sp with st := { start := t } }
        | none => sp)) := by
  unfold shr_stat
  rw [if_neg (by simp [hlk])]
  apply Ok.get_bind
  have hst : ({ r.stat with
      bn := r.n, bu := r.u, mu := r.m, mm := r.mm,
      cn := h.c.sz, cm := h.c.vm, cb := h.c.n, flags := r.gflags } : Stat) = sp.statOf sh := by
    have hm : r.m = sp.unread.length := by rw [hr.rep.m, ← hr.unread_eq]; simp
    have hu : r.u = bytesOf sp.unread := by rw [hr.rep.u, hr.unread_eq]
    rw [hr.stat, hr.n, hr.mm, hr.gf, hm, hu, hh.cache.sz, hh.cache.vm, hh.cache.n]
    rfl
  dsimp only at hst ⊢
  rw [hst, hr.gf]
  cases reset with
  | none =>
    dsimp only
    split <;> exact Ok.pure ⟨rfl, hr⟩
  | some t =>
    refine Ok.store_bind trivial ?_
    refine Ok.store_bind trivial ?_
    have := hr.setStat (toStat_start t)
    dsimp only
    split <;> exact Ok.pure ⟨rfl, this⟩

/-- What a caller of `shr_appdata` owes: buffers of the announced size, and (src/shr.c:1063 copies
`*sz` bytes, not the region's length) no larger announced size than the region. -/
def AppWF (appLen : Nat) (get : GetArg) (set : Option (List Byte)) (sz : Nat) : Prop :=
  (∀ b, set = some b → sz ≤ b.length) ∧ (∀ cap, get = .into cap → sz ≤ cap) ∧
  (∀ cap, get = .into cap → set = none → sz ≤ appLen)

theorem Ok.of_eq {σ α : Type} {x : M σ α} {s : σ} {t : List σ} {a : α} {s' : σ}
    {Q : α → σ → Prop} (h : x s = ⟨t, .ok a s'⟩) (hq : Q a s') : Ok x s (fun _ => True) Q :=
  ⟨fun _ _ => trivial, a, s', by rw [h], hq⟩

theorem memRead_take {d : List Byte} {len : Nat} (h : len ≤ d.length) : memRead d 0 len = .ok (d.take len) := by
  unfold memRead; rw [if_pos (by omega)]; simp

theorem appSet_spec {r : Ring} {sp : Spec} (hr : RingRel r sp) {b : List Byte} (hb : b.length = sp.app.length) :
    Ok (memcpyShared Ring.app (fun a r => { r with app := a }) 0 b) r (fun _ => True) (fun _ r' =>
      RingRel r' { sp with app := b }) := by
  have hput : put r.app 0 b = b := by
    unfold put; rw [hr.app]; simp [hb]
  refine ⟨fun _ _ => trivial, (), { r with app := b }, ?_, ?_⟩
  · unfold memcpyShared
    rw [if_pos (by rw [hr.app]; omega), hput]
  · obtain ⟨⟨⟨p1, g1⟩, a2, a3, a4, a5, a6, a7, a8⟩, b2, b3, b4, b5, b6, b7, b8, b9, b10⟩ := hr
    exact ⟨⟨⟨p1, g1.congr rfl rfl rfl rfl rfl⟩, a2, a3, a4, a5, a6, a7, a8⟩, b2, b3, b4, b5, b6, rfl,
      b8.trans hb.symm, b9, b10⟩

theorem shr_appdata_spec {r : Ring} {sp : Spec} (hr : RingRel r sp) (get : GetArg) (set : Option (List Byte))
    (sz : Nat) (env : Env) (hwf : AppWF sp.app.length get set sz) :
    Ok (shr_appdata get set sz env) r (fun _ => True) (fun x r' =>
      x = (sp.appdata get set sz env).2 ∧ RingRel r' (sp.appdata get set sz env).1) := by
  obtain ⟨w1, w2, w3⟩ := hwf
  unfold shr_appdata Spec.appdata
  cases hlk : env.lockOk
  · simp only [if_true, true_or]
    exact Ok.pure ⟨rfl, hr⟩
  simp only [Bool.true_eq_false, if_false, false_or]
  apply Ok.get_bind
  rw [hr.app_len]
  by_cases h0 : sp.app.length = 0
  · simp only [if_pos h0]; exact Ok.pure ⟨rfl, hr⟩
  simp only [if_neg h0]
  have hfin : ∀ (got : Option (List Byte)) (sz' : Nat) (r1 : Ring) (sp1 : Spec), RingRel r1 sp1 →
      Ok ((if r.gflags.has SHR_SYNC = true ∧ env.syncOk = false then pure ⟨-1, got, sz'⟩
        else pure ⟨0, got, sz'⟩ : M Ring AppOut)) r1 (fun _ => True) (fun x r' =>
        x = ⟨if sp.gflags.has SHR_SYNC = true ∧ env.syncOk = false then -1 else 0, got, sz'⟩ ∧
        RingRel r' sp1) := by
    intro got sz' r1 sp1 h1
    rw [hr.gf]
    split <;> exact Ok.pure ⟨rfl, h1⟩
  have hal : r.app.length = sp.app.length := by rw [hr.app]
  cases get with
  | null =>
    cases set with
    | none => exact hfin _ _ _ _ hr
    | some b =>
      have := w1 b rfl
      dsimp only
      by_cases hs : sz ≠ sp.app.length
      · simp only [if_pos hs]; exact Ok.pure ⟨rfl, hr⟩
      simp only [if_neg hs]
      refine Ok.lift_bind (memRead_take this) ?_
      apply Ok.bind
      refine (appSet_spec hr (b := b.take sz) (by simp; omega)).mono (fun _ h => h) ?_
      intro _ r1 hr1
      exact hfin _ _ _ _ hr1
  | alloc =>
    cases set with
    | none =>
      dsimp only
      cases env.mallocOk
      · simp only [if_true]; exact Ok.pure ⟨rfl, hr⟩
      · simp only [Bool.true_eq_false, if_false]
        refine Ok.lift_bind (memRead_take (by rw [hal]; exact Nat.le_refl _)) ?_
        rw [List.take_of_length_le (by omega), hr.app]
        exact hfin _ _ _ _ hr
    | some b => exact hfin _ _ _ _ hr
  | into cap =>
    have hc := w2 cap rfl
    cases set with
    | none =>
      have := w3 cap rfl rfl
      dsimp only
      by_cases hs : sz < sp.app.length
      · simp only [if_pos hs]; exact Ok.pure ⟨rfl, hr⟩
      simp only [if_neg hs]
      refine Ok.lift_bind (memRead_take (by omega)) ?_
      rw [List.take_of_length_le (by omega), hr.app, if_pos hc]
      refine Ok.pure_bind ?_
      exact hfin _ _ _ _ hr
    | some b =>
      have := w1 b rfl
      dsimp only
      by_cases hs : sz ≠ sp.app.length
      · simp only [if_pos hs]; exact Ok.pure ⟨rfl, hr⟩
      simp only [if_neg hs]
      refine Ok.lift_bind (memRead_take (by omega)) ?_
      rw [List.take_of_length_le (by omega), hr.app, if_pos hc]
      refine Ok.lift_bind (memRead_take this) ?_
      apply Ok.bind
      refine (appSet_spec hr (b := b.take sz) (by simp; omega)).mono (fun _ h => h) ?_
      intro _ r1 hr1
      exact hfin _ _ _ _ hr1

/-! ## Opening -/

theorem cacheSize_le (n : Nat) : cacheSize n ≤ n := by
  unfold cacheSize; dsimp only; split <;> split <;> omega

theorem cacheSize_eq (n : Nat) : cacheSize n = Spec.holdBytes n := by
  unfold cacheSize Spec.holdBytes; dsimp only; split <;> split <;> split <;> omega

theorem crel_empty : CRel {} [] 0 0 :=
  ⟨rfl, rfl, rfl, rfl, rfl, rfl, by simp, by simp, by decide, by decide, by simp, by simp [layout], by simp⟩

theorem init_cache_plain (r : Ring) (flags : Flags) (env : Env)
    (h : (flags.has SHR_WRONLY && flags.has SHR_BUFFERED) ≠ true) : init_cache r flags env = some {} := by
  unfold init_cache
  cases h1 : flags.has SHR_WRONLY
  · simp
  · cases h2 : flags.has SHR_BUFFERED
    · simp
    · exact absurd (by rw [h1, h2]; rfl) h

theorem openLocked_facts {r : Ring} {sp : Spec} (hgf : r.gflags = sp.gflags) (hn : r.n = sp.cap) (hm : r.mm = sp.maxm) (hcap : sp.cap ≤ SSIZE_MAX)
    (hmm : sp.maxm ≤ SSIZE_MAX) (hqe : sp.farm = true → r.q = sp.base) (hbl : sp.base ≤ sp.log.length) (flags : Flags) (env : Env)
    (hmode : (flags.has SHR_RDONLY && flags.has SHR_WRONLY) = false) :
    (openLocked r flags env = none ∧ sp.openH flags env = none) ∨
    ∃ h sh, openLocked r flags env = some h ∧ sp.openH flags env = some sh ∧ HRel sp h sh := by
  unfold openLocked Spec.openH
  rw [hgf]
  simp only [← cacheSize_eq]
  cases env.lockOk
  · left; simp
  by_cases hml : sp.gflags.has SHR_MLOCK = true ∧ env.mlockOk = false
  · left; simp [hml]
  cases env.bwOpenOk
  · left; simp [hml]
  simp only [Bool.true_eq_false, if_false, if_neg hml]
  rw [SSIZE_MAX_val] at hmm hcap
  have hcs := cacheSize_le sp.cap
  have hq : CurRel sp ⟨r.q, 0⟩ ⟨flags, sp.base, 0, [], 0, 0, false⟩ := by
    exact ⟨fun hf => ⟨hqe hf, hbl⟩, rfl⟩
  have hdrop : sp.gflags.has SHR_DROP = sp.drop := rfl
  have hr2 : (flags.has SHR_RDONLY || (flags.has SHR_WRONLY &&
      decide (flags.has SHR_NONBLOCK = false ∧ sp.gflags.has SHR_DROP = false))) =
      (flags.has SHR_RDONLY || (flags.has SHR_WRONLY && (!flags.has SHR_NONBLOCK && !sp.drop))) := by
    rw [hdrop]
    cases flags.has SHR_NONBLOCK <;> cases sp.drop <;> simp
  by_cases hbf : (flags.has SHR_WRONLY && flags.has SHR_BUFFERED) = true
  · have h1 : flags.has SHR_WRONLY = true := by simp at hbf; exact hbf.1
    have h2 : flags.has SHR_BUFFERED = true := by simp at hbf; exact hbf.2
    simp only [init_cache, h1, h2, Bool.true_eq_false, if_false, Bool.and_self, if_true, true_and, false_or]
    cases env.mallocOk
    · left; simp
    simp only [Bool.true_eq_false, if_false]
    by_cases hsy : sp.gflags.has SHR_SYNC = true ∧ env.syncOk = false
    · left; simp [hsy]
    right
    rw [if_neg hsy, if_neg (by rintro (h | h | h) <;> first | exact hml h | exact hsy h | exact absurd h (by simp))]
    refine ⟨_, _, rfl, rfl, rfl, hn, hm, ⟨hq.1, hq.2⟩, ?_, hcs, by show min _ _ ≤ _; omega, ?_, ?_, hmode⟩
    · rw [hn, hm]
      refine ⟨rfl, rfl, by simp, by simp, rfl, rfl, by simp, by simp, ?_, ?_, by simp, by simp [layout], by simp⟩
      · rw [W_val]; show cacheSize sp.cap < _; omega
      · rw [W_val]; show min 10000 sp.maxm < _; omega
    · dsimp only; intro h; rw [h1, h2] at h; simp at h
    · dsimp only
      have := hr2; rw [h1] at this; exact this
  · rw [init_cache_plain _ _ _ hbf]
    dsimp only
    by_cases hsy : sp.gflags.has SHR_SYNC = true ∧ env.syncOk = false
    · left; simp [hsy]
    right
    rw [if_neg hsy, if_neg (by rintro (h | h | h | h | h) <;> first | exact hml h | exact hsy h | exact hbf h.1 | exact absurd h (by simp))]
    rw [if_neg hbf, if_neg hbf]
    exact ⟨_, _, rfl, rfl, rfl, hn, hm, ⟨hq.1, hq.2⟩, crel_empty, Nat.zero_le _, Nat.zero_le _, fun _ => rfl, hr2, hmode⟩

theorem openLocked_spec {r : Ring} {sp : Spec} (hr : RingRel r sp) (flags : Flags) (env : Env)
    (hmode : (flags.has SHR_RDONLY && flags.has SHR_WRONLY) = false) :
    (openLocked r flags env = none ∧ sp.openH flags env = none) ∨
    ∃ h sh, openLocked r flags env = some h ∧ sp.openH flags env = some sh ∧ HRel sp h sh :=
  openLocked_facts hr.gf hr.n hr.mm hr.cap_le (by obtain ⟨p0, g⟩ := hr.rep.geo; rw [← hr.mm]; exact g.mmbd) (fun hf => hr.q_eq hf)
    (by have := hr.ble; have := hr.fle; omega) flags env hmode

end Shr
