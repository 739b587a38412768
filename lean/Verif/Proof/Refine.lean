import Verif.Proof.RefineS
/-! # Refinement, part 5: single calls and whole histories -/
namespace Shr

/-- Handles correspond. -/
def LRel (sp : Spec) : Life Handle Unit → Life SHandle (List Msg) → Prop
  | .never, .never => True
  | .live h, .live sh => HRel sp h sh
  | .gone _, .gone _ => True
  | _, _ => False

/-- The system represents the specification state. -/
structure Rel (s : Sys) (sp : Spec) : Prop where
  ring : RingRel s.ring sp
  hs : ∀ k, LRel sp (s.hs k) (sp.hs k)

/-- What the caller owes, per call. -/
def Op.WF (appLen : Nat) : Op → Prop
  | .open _ flags _ => (flags.has SHR_RDONLY && flags.has SHR_WRONLY) = false
  | .writev _ iov _ _ => WriteWF iov
  | .readv _ buf _ _ => buf.length < W
  | .appdata _ get set sz _ => AppWF appLen get set sz
  | _ => True

theorem Ok.exec_eq {α : Type} {x : M Ring α} {r : Ring} {T : Ring → Prop} {Q : α → Ring → Prop}
    (h : Ok x r T Q) : ∃ a r', exec x r = .ok (a, r') ∧ Q a r' := by
  obtain ⟨a, r', h1, h2⟩ := h.res
  exact ⟨a, r', by unfold exec; rw [h1], h2⟩

theorem LRel.mono {sp sp' : Spec} (hle : SpLe sp sp') {a : Life Handle Unit} {b : Life SHandle (List Msg)}
    (h : LRel sp a b) : LRel sp' a b := by
  cases a <;> cases b <;> simp only [LRel] at h ⊢
  exact h.mono hle

/-- Handles after a call on handle `k`. -/
theorem lrel_upd {s : Sys} {sp sp' : Spec} (h : ∀ k, LRel sp (s.hs k) (sp.hs k)) (hle : SpLe sp sp')
    (k : Nat) {a : Life Handle Unit} {b : Life SHandle (List Msg)} (hk : LRel sp' a b) :
    ∀ j, LRel sp' (upd s.hs k a j) (upd sp.hs k b j) := by
  intro j
  unfold upd
  by_cases e : j = k
  · simp [e, hk]
  · simp only [if_neg e]; exact (h j).mono hle

/-- `RingRel` and `HRel` do not mention the handle table. -/
theorem RingRel.hs_irrel {r : Ring} {sp : Spec} (h : RingRel r sp) (f : Nat → Life SHandle (List Msg)) :
    RingRel r { sp with hs := f } := by
  obtain ⟨⟨⟨p1, g1⟩, a2, a3, a4, a5, a6, a7, a8⟩, b2, b3, b4, b5, b6, b7, b8, b9, b10⟩ := h
  exact ⟨⟨⟨p1, g1⟩, a2, a3, a4, a5, a6, a7, a8⟩, b2, b3, b4, b5, b6, b7, b8, b9, b10⟩

theorem HRel.hs_irrel {sp : Spec} {h : Handle} {sh : SHandle} (hh : HRel sp h sh)
    (f : Nat → Life SHandle (List Msg)) : HRel { sp with hs := f } h sh :=
  hh.mono ⟨rfl, rfl, rfl, Nat.le_refl _⟩

theorem LRel.hs_irrel {sp : Spec} {a : Life Handle Unit} {b : Life SHandle (List Msg)}
    (h : LRel sp a b) (f : Nat → Life SHandle (List Msg)) : LRel { sp with hs := f } a b :=
  LRel.mono (sp := sp) (sp' := { sp with hs := f }) ⟨rfl, rfl, rfl, Nat.le_refl _⟩ h

theorem HRel.farmReset {sp : Spec} {h : Handle} {sh : SHandle} (hh : HRel sp h sh) :
    HRel sp { h with cur := { h.cur with md := 0 } } { sh with missed := 0 } :=
  ⟨hh.flags, hh.n, hh.mm, ⟨hh.cur.1, rfl⟩, hh.cache, hh.csz, hh.cvt, hh.nbuf, hh.r2w, hh.mode⟩

theorem WrOut.out_res (o : WrOut) : o.out = o.res.out := by cases o <;> rfl

/-- One call behaves as specified and does not fault. -/
theorem step_refine {s : Sys} {sp : Spec} (h : Rel s sp) (op : Op) (hwf : op.WF sp.app.length)
    (hlog : sp.farm = true → (sp.step op).1.log.length < W) :
    ∃ s', s.step op = .ok (s', (sp.step op).2) ∧ Rel s' (sp.step op).1 := by
  obtain ⟨hr, hhs⟩ := h
  cases op with
  | «open» k flags env =>
    have hk := hhs k
    unfold Sys.step Spec.step
    dsimp only
    cases h1 : s.hs k <;> cases h2 : sp.hs k <;> rw [h1, h2] at hk <;> simp only [LRel] at hk
    · dsimp only
      cases hv : validate_flags flags
      · exact ⟨s, rfl, hr, hhs⟩
      · simp only [Bool.true_eq_false, if_false]
        rcases openLocked_spec hr flags env hwf with ⟨e1, e2⟩ | ⟨h, sh, e1, e2, hh⟩
        · rw [e1, e2]; exact ⟨s, rfl, hr, hhs⟩
        · rw [e1, e2]
          exact ⟨_, rfl, hr.hs_irrel _, fun j => (lrel_upd hhs (SpLe.refl _) k (a := .live h) (b := .live sh) hh j).hs_irrel _⟩
    · exact ⟨s, rfl, hr, hhs⟩
    · exact ⟨s, rfl, hr, hhs⟩
  | writev k iov envF env =>
    have hk := hhs k
    unfold Sys.step Spec.step at *
    dsimp only at hlog ⊢
    cases h1 : s.hs k <;> cases h2 : sp.hs k <;> rw [h1, h2] at hk <;> simp only [LRel] at hk
    · exact ⟨s, rfl, hr, hhs⟩
    · rename_i hd sh
      simp only [h2] at hlog
      dsimp only
      rw [hk.flags]
      cases hw : sh.flags.has SHR_WRONLY
      · exact ⟨s, rfl, hr, hhs⟩
      · simp only [hw, Bool.true_eq_false, if_false] at hlog ⊢
        obtain ⟨⟨h', o⟩, r', e, h3, h4, h5⟩ := (shr_writev_spec hr hk hw k hwf envF env hlog).exec_eq
        rw [e]
        dsimp only
        dsimp only at h3 h5
        rw [WrOut.out_res, h3]
        have hle := SpLe.writev sp k sh iov envF env
        exact ⟨_, rfl, h4.hs_irrel _, fun j => (lrel_upd hhs hle k (a := .live h') (b := .live _) h5 j).hs_irrel _⟩
    · exact ⟨s, rfl, hr, hhs⟩
  | readv k buf niov env =>
    have hk := hhs k
    unfold Sys.step Spec.step at *
    dsimp only at hlog ⊢
    cases h1 : s.hs k <;> cases h2 : sp.hs k <;> rw [h1, h2] at hk <;> simp only [LRel] at hk
    · exact ⟨s, rfl, hr, hhs⟩
    · rename_i hd sh
      dsimp only
      rw [hk.flags]
      cases hw : sh.flags.has SHR_RDONLY
      · exact ⟨s, rfl, hr, hhs⟩
      · simp only [Bool.true_eq_false, if_false]
        obtain ⟨⟨h', o⟩, r', e, h3, h4, h5⟩ := (shr_readv_spec hr hk hw buf hwf niov env).exec_eq
        rw [e]
        dsimp only
        dsimp only at h3 h5
        rw [h3]
        have hle := SpLe.readv sp sh buf niov env
        exact ⟨_, rfl, h4.hs_irrel _, fun j => (lrel_upd hhs hle k (a := .live h') (b := .live _) h5 j).hs_irrel _⟩
    · exact ⟨s, rfl, hr, hhs⟩
  | flush k wait env =>
    have hk := hhs k
    unfold Sys.step Spec.step at *
    dsimp only at hlog ⊢
    cases h1 : s.hs k <;> cases h2 : sp.hs k <;> rw [h1, h2] at hk <;> simp only [LRel] at hk
    · exact ⟨s, rfl, hr, hhs⟩
    · rename_i hd sh
      simp only [h2] at hlog
      dsimp only
      rw [hk.flags]
      cases hw : sh.flags.has SHR_WRONLY
      · exact ⟨s, rfl, hr, hhs⟩
      · simp only [hw, Bool.true_eq_false, if_false] at hlog ⊢
        obtain ⟨⟨h', o⟩, r', e, h3, h4, h5⟩ := (shr_flush_spec hr hk hw k wait env hlog).exec_eq
        rw [e]
        dsimp only
        dsimp only at h3 h5
        rw [WrOut.out_res, h3]
        have hle := SpLe.flush sp k sh wait env
        exact ⟨_, rfl, h4.hs_irrel _, fun j => (lrel_upd hhs hle k (a := .live h') (b := .live _) h5 j).hs_irrel _⟩
    · exact ⟨s, rfl, hr, hhs⟩
  | close k env =>
    have hk := hhs k
    unfold Sys.step Spec.step at *
    dsimp only at hlog ⊢
    cases h1 : s.hs k <;> cases h2 : sp.hs k <;> rw [h1, h2] at hk <;> simp only [LRel] at hk
    · exact ⟨s, rfl, hr, hhs⟩
    · rename_i hd sh
      simp only [h2] at hlog
      dsimp only
      have hlog' : sp.farm = true → (sp.flush k sh false env).1.log.length < W := by
        intro hf
        have := hlog hf
        split at this <;> exact this
      obtain ⟨o, r', e, h3, h4⟩ := (shr_close_spec hr hk k env hlog').exec_eq
      rw [e]
      have hle := SpLe.flush sp k sh false env
      have hhse := flush_hs sp k sh false env
      generalize sp.flush k sh false env = X at *
      obtain ⟨sp1, sh1, w⟩ := X
      dsimp only at h3 h4 hle hhse ⊢
      subst h3
      cases o with
      | wait => exact ⟨_, rfl, h4, fun j => by dsimp only [WrOut.res]; rw [hhse]; exact (hhs j).mono hle⟩
      | ret rc wk =>
        exact ⟨_, rfl, h4.hs_irrel _, fun j => (lrel_upd hhs hle k (a := .gone ()) (b := .gone sh1.pend) trivial j).hs_irrel _⟩
    · exact ⟨s, rfl, hr, hhs⟩
  | stat k reset env =>
    have hk := hhs k
    unfold Sys.step Spec.step at *
    dsimp only at hlog ⊢
    cases h1 : s.hs k <;> cases h2 : sp.hs k <;> rw [h1, h2] at hk <;> simp only [LRel] at hk
    · exact ⟨s, rfl, hr, hhs⟩
    · rename_i hd sh
      dsimp only
      cases hlk : env.lockOk
      · have : exec (shr_stat hd reset env) s.ring = .ok ((-1, none), s.ring) := by
          unfold exec shr_stat; rw [if_pos hlk]; rfl
        rw [this]
        exact ⟨_, rfl, hr, hhs⟩
      · obtain ⟨o, r', e, h3, h4⟩ := (shr_stat_spec hr hk reset env hlk).exec_eq
        rw [e, h3]
        simp only [Bool.true_eq_false, if_false]
        refine ⟨_, rfl, h4, fun j => ?_⟩
        cases reset with
        | none => exact hhs j
        | some t => exact LRel.mono (sp := sp) (sp' := { sp with st := { start := t } }) ⟨rfl, rfl, rfl, Nat.le_refl _⟩ (hhs j)
    · exact ⟨s, rfl, hr, hhs⟩
  | farmStat k reset =>
    have hk := hhs k
    unfold Sys.step Spec.step at *
    dsimp only at hlog ⊢
    cases h1 : s.hs k <;> cases h2 : sp.hs k <;> rw [h1, h2] at hk <;> simp only [LRel] at hk
    · exact ⟨s, rfl, hr, hhs⟩
    · rename_i hd sh
      dsimp only
      cases hw : sh.flags.has SHR_RDONLY
      · rw [hk.flags, hw]; exact ⟨s, rfl, hr, hhs⟩
      · have hw' : hd.flags.has SHR_RDONLY = true := by rw [hk.flags]; exact hw
        simp only [hw', Bool.true_eq_false, if_false]
        have : exec (shr_farm_stat hd reset) s.ring =
            .ok ((if reset then { hd with cur := { hd.cur with md := 0 } } else hd, hd.cur.md), s.ring) := by
          unfold exec shr_farm_stat; rw [M.assert_bind_of hw']; rfl
        rw [this]
        dsimp only
        rw [hk.cur.md]
        refine ⟨_, rfl, hr.hs_irrel _, fun j => (lrel_upd hhs (SpLe.refl _) k ?_ j).hs_irrel _⟩
        cases reset
        · exact hk
        · exact hk.farmReset
    · exact ⟨s, rfl, hr, hhs⟩
  | appdata k get set sz env =>
    have hk := hhs k
    unfold Sys.step Spec.step at *
    dsimp only at hlog ⊢
    cases h1 : s.hs k <;> cases h2 : sp.hs k <;> rw [h1, h2] at hk <;> simp only [LRel] at hk
    · exact ⟨s, rfl, hr, hhs⟩
    · rename_i hd sh
      dsimp only
      obtain ⟨o, r', e, h3, h4⟩ := (shr_appdata_spec hr get set sz env hwf).exec_eq
      rw [e, h3]
      refine ⟨_, rfl, h4, fun j => ?_⟩
      have hle : SpLe sp (sp.appdata get set sz env).1 ∧ (sp.appdata get set sz env).1.hs = sp.hs := by
        unfold Spec.appdata
        dsimp only
        repeat' split
        all_goals exact ⟨⟨rfl, rfl, rfl, Nat.le_refl _⟩, rfl⟩
      rw [hle.2]
      exact (hhs j).mono hle.1
    · exact ⟨s, rfl, hr, hhs⟩

/-! ## Histories -/

theorem SpLe.log_mono {a b : Spec} (h : SpLe a b) : a.log.length ≤ b.log.length := h.log

theorem step_le (sp : Spec) (op : Op) : SpLe sp (sp.step op).1 := by
  cases op <;> unfold Spec.step <;> dsimp only
  · repeat' split
    all_goals exact ⟨rfl, rfl, rfl, Nat.le_refl _⟩
  · split
    · split
      · exact SpLe.refl _
      · exact (SpLe.writev _ _ _ _ _ _).trans ⟨rfl, rfl, rfl, Nat.le_refl _⟩
    · exact SpLe.refl _
  · split
    · split
      · exact SpLe.refl _
      · exact (SpLe.readv _ _ _ _ _).trans ⟨rfl, rfl, rfl, Nat.le_refl _⟩
    · exact SpLe.refl _
  · split
    · split
      · exact SpLe.refl _
      · exact (SpLe.flush _ _ _ _ _).trans ⟨rfl, rfl, rfl, Nat.le_refl _⟩
    · exact SpLe.refl _
  · split
    · split
      · exact SpLe.flush _ _ _ _ _
      · exact (SpLe.flush _ _ _ _ _).trans ⟨rfl, rfl, rfl, Nat.le_refl _⟩
    · exact SpLe.refl _
  · repeat' split
    all_goals exact ⟨rfl, rfl, rfl, Nat.le_refl _⟩
  · repeat' split
    all_goals exact ⟨rfl, rfl, rfl, Nat.le_refl _⟩
  · split
    · unfold Spec.appdata
      dsimp only
      repeat' split
      all_goals exact ⟨rfl, rfl, rfl, Nat.le_refl _⟩
    · exact SpLe.refl _

theorem run_le : ∀ (ops : List Op) (sp : Spec), SpLe sp (sp.run ops).1 := by
  intro ops
  induction ops with
  | nil => intro sp; exact SpLe.refl _
  | cons op ops ih => intro sp; exact (step_le sp op).trans (ih _)

/-- The size of the app-data region never changes. -/
theorem step_app_length {sp : Spec} (op : Op) (hwf : op.WF sp.app.length) :
    (sp.step op).1.app.length = sp.app.length := by
  have tw : ∀ (sp : Spec) who nb new env, (sp.tryWrite who nb new env).1.app = sp.app := by
    intro sp who nb new env
    unfold Spec.tryWrite
    repeat' split
    all_goals rfl
  have fl : ∀ (sp : Spec) k sh wait env, (sp.flush k sh wait env).1.app = sp.app := by
    intro sp k sh wait env
    unfold Spec.flush
    dsimp only
    repeat' split
    all_goals first | rfl | exact tw _ _ _ _ _
  cases op <;> unfold Spec.step <;> dsimp only
  · repeat' split
    all_goals rfl
  · split
    · split
      · rfl
      · unfold Spec.writev
        dsimp only
        repeat' split
        all_goals first | rfl | (rw [tw, tw]; done) | (rw [tw]; done)
    · rfl
  · split
    · split
      · rfl
      · unfold Spec.readv
        dsimp only
        repeat' split
        all_goals rfl
    · rfl
  · split
    · split
      · rfl
      · dsimp only; rw [fl]
    · rfl
  · split
    · split <;> (dsimp only; rw [fl])
    · rfl
  · repeat' split
    all_goals rfl
  · repeat' split
    all_goals rfl
  · rename_i k get set sz env
    split
    · obtain ⟨w1, w2, w3⟩ := hwf
      unfold Spec.appdata
      dsimp only
      split
      · rfl
      · rcases get with _ | _ | cap <;> rcases set with _ | b <;> dsimp only
        · split
          · rfl
          · rename_i h; have := w1 b rfl; simp at h; simp; omega
        · split <;> rfl
        · split <;> rfl
        · split
          · rfl
          · rename_i h; have := w1 b rfl; simp at h; simp; omega
    · rfl

/-- A history of calls from a related state does not fault, and its results are the specified ones. -/
theorem run_refine : ∀ (ops : List Op) {s : Sys} {sp : Spec}, Rel s sp →
    (∀ op ∈ ops, op.WF sp.app.length) → (sp.farm = true → (sp.run ops).1.log.length < W) →
    ∃ s', s.run ops = .ok (s', (sp.run ops).2) ∧ Rel s' (sp.run ops).1 := by
  intro ops
  induction ops with
  | nil => intro s sp h _ _; exact ⟨s, rfl, h⟩
  | cons op ops ih =>
    intro s sp h hwf hlog
    have hle := run_le ops (sp.step op).1
    have hst := step_le sp op
    obtain ⟨s1, e1, h1⟩ := step_refine h op (hwf op (by simp))
      (fun hf => Nat.lt_of_le_of_lt hle.log (hlog hf))
    obtain ⟨s2, e2, h2⟩ := ih h1
      (by rw [step_app_length op (hwf op (by simp))]; exact fun o ho => hwf o (by simp [ho]))
      (fun hf => hlog (by unfold Spec.farm at *; rw [← hst.gf]; exact hf))
    refine ⟨s2, ?_, h2⟩
    unfold Sys.run
    rw [e1]
    dsimp only
    rw [e2]
    rfl

/-! ## Creation -/

/-- Creation parameters that do not overflow `size_t` (shr.c does not check this: see C19). -/
structure InitArgs.WF (a : InitArgs) : Prop where
  pos : 0 < a.dataSz
  sz : a.dataSz ≤ SSIZE_MAX
  app : a.appsize < W
  mm : a.max_msgs * SIZEOF_MSG < W

theorem InitArgs.mmpos (a : InitArgs) (h : a.WF) : 0 < a.max_msgs := by
  unfold InitArgs.max_msgs
  dsimp only
  have := h.sz
  rw [SSIZE_MAX_val] at this
  by_cases h0 : (if a.flags.has SHR_MAXMSGS_2 = true then a.maxMsgs else 0) = 0
  · rw [if_pos h0, wadd_eq (by rw [W_val]; omega)]; omega
  · rw [if_neg h0]; omega

theorem gflags_farm (a : InitArgs) : a.gflags.has SHR_FARM = a.flags.has SHR_FARM := by
  rw [has_FARM]
  unfold InitArgs.gflags
  dsimp only
  cases a.flags.has SHR_SYNC <;> cases a.flags.has SHR_DROP <;> cases a.flags.has SHR_FARM <;>
    cases a.flags.has SHR_MLOCK <;> rfl

theorem gflags_drop (a : InitArgs) :
    a.gflags.has SHR_DROP = (a.flags.has SHR_DROP || a.flags.has SHR_FARM) := by
  rw [has_DROP]
  unfold InitArgs.gflags
  dsimp only
  cases a.flags.has SHR_SYNC <;> cases a.flags.has SHR_DROP <;> cases a.flags.has SHR_FARM <;>
    cases a.flags.has SHR_MLOCK <;> rfl

theorem init_rel (a : InitArgs) (h : a.WF) : Rel (Sys.init a) (Spec.init a) := by
  have hmp := a.mmpos h
  have hmm := h.mm
  refine ⟨⟨⟨⟨0, ⟨⟨h.pos, h.sz, hmp, ?_, by simp [Sys.init, initRing], ?_, by simp [Spec.retained, Spec.log, Spec.init],
    by simp [Spec.retained, Spec.log, Spec.init], by simp [Spec.retained, Spec.log, Spec.init], h.pos, ?_, ?_⟩, ?_⟩⟩, by simp [Spec.init],
    rfl, rfl, rfl, ?_, fun _ => rfl, ?_⟩, Nat.le_refl _, Nat.le_refl _, rfl, rfl, rfl, rfl, ?_, rfl, ?_⟩, fun _ => trivial⟩
  · show a.max_msgs ≤ _
    unfold SIZEOF_MSG at hmm
    rw [W_val] at hmm; rw [SSIZE_MAX_val]; omega
  · show (List.replicate (a.mv_bytes / SIZEOF_MSG) _).length = a.max_msgs
    unfold InitArgs.mv_bytes wmul
    rw [Nat.mod_eq_of_lt hmm]
    simp [SIZEOF_MSG]
  · intro j b hj; simp [Spec.retained, Spec.log, Spec.init] at hj
  · intro j b hj; simp [Spec.retained, Spec.log, Spec.init] at hj
  · simp [Sys.init, initRing, Spec.retained, Spec.log, Spec.init]
  · show 0 = 0 % _; simp
  · show 0 = _ % _; simp [Spec.init]
  · show a.appsize = (if a.flags.has SHR_APPDATA_1 then a.app else []).length
    unfold InitArgs.appsize; split <;> rfl
  · intro hf
    refine ⟨rfl, ?_, by simp [Spec.log, Spec.init, W]⟩
    have : a.gflags.has SHR_FARM = true := hf
    rw [gflags_farm] at this
    show a.gflags.has SHR_DROP = true
    rw [gflags_drop, this, Bool.or_true]

/-- The main refinement theorem.  Every history of API calls on a fresh ring completes without
a failed assertion, an access outside its memory or an endless loop, and every call returns exactly
what the specification machine says. -/
theorem refinement (a : InitArgs) (ha : a.WF) (ops : List Op) (hwf : ∀ op ∈ ops, op.WF a.appsize)
    (hlog : a.flags.has SHR_FARM = true → ((Spec.init a).run ops).1.log.length < W) :
    ∃ s', (Sys.init a).run ops = .ok (s', ((Spec.init a).run ops).2) ∧ Rel s' ((Spec.init a).run ops).1 := by
  have e : (Spec.init a).app.length = a.appsize := by
    show (if a.flags.has SHR_APPDATA_1 then a.app else []).length = a.appsize
    unfold InitArgs.appsize; split <;> rfl
  apply run_refine ops (init_rel a ha)
  · rw [e]; exact hwf
  · intro hf
    apply hlog
    rw [← gflags_farm]; exact hf

end Shr
