import Verif.Model.Ctl
import Verif.Proof.At
import Verif.Proof.Demo
import Verif.Proof.ToolSys
/-!
# C66: shr_ctl
-/
namespace Shr

/-! ## What a step leaves unchanged in a handle -/

theorem tryWrite_gflags (sp : Spec) (k : Nat) (nb : Bool) (ms : List Msg) (env : Env) : (sp.tryWrite k nb ms env).1.gflags = sp.gflags := by
  unfold Spec.tryWrite
  repeat' split
  all_goals rfl

/-- The result of an attempt to write is -3 only if `bw_wait_ul` returns -3. -/
theorem tryWrite_m3 {sp : Spec} {k : Nat} {nb : Bool} {ms : List Msg} {env : Env} (h : (sp.tryWrite k nb ms env).2 = .ret (-3)) :
    env.waitRc = some .pollfd := by
  unfold Spec.tryWrite at h
  split at h
  · cases h
  split at h
  · dsimp only at h
    split at h
    · cases h
    split at h
    · cases h
    · injection h with h; omega
  split at h
  · cases h
  split at h
  · rename_i sc hsc
    cases sc with
    | error => simp [WaitErr.rc] at h
    | pollfd => exact hsc
  · cases h

theorem writev_m3 {sp : Spec} {k : Nat} {sh : SHandle} {ms : List Msg} {envF env : Env} (h : (sp.writev k sh ms envF env).2.2 = .ret (-3)) :
    envF.waitRc = some .pollfd ∨ env.waitRc = some .pollfd := by
  unfold Spec.writev at h
  dsimp only at h
  split at h
  · cases h
  split at h
  · exact .inr (tryWrite_m3 h)
  split at h
  · injection h with h; omega
  split at h
  · exact .inr (tryWrite_m3 h)
  split at h
  · cases h
  rename_i rc hx
  split at h
  · injection h with h
    subst h
    exact .inl (tryWrite_m3 hx)
  split at h
  · injection h with h; omega
  · exact .inr (tryWrite_m3 h)

theorem readv_m3 {sp : Spec} {sh : SHandle} {buf : List Byte} {niov : Nat} {env : Env} {iov : List (Nat × Nat)} {buf' : List Byte}
    (h : (sp.readv sh buf niov env).2.2 = .read (-3) iov buf') : env.waitRc = some .pollfd := by
  unfold Spec.readv at h
  dsimp only at h
  split at h
  · cases h
  split at h
  · split at h
    · cases h
    split at h
    · rename_i sc hsc
      cases sc with
      | error => simp [WaitErr.rc] at h
      | pollfd => exact hsc
    · cases h
  · dsimp only at h
    injection h with h
    split at h <;> omega

theorem flush_m3 {sp : Spec} {k : Nat} {sh : SHandle} {wait : Bool} {env : Env} (h : (sp.flush k sh wait env).2.2 = .ret (-3)) :
    env.waitRc = some .pollfd := by
  unfold Spec.flush at h
  dsimp only at h
  split at h
  · cases h
  split at h
  · cases h
  · exact tryWrite_m3 h

/-- A call returns -3 only if `bw_wait_ul` returned it. -/
theorem m3_interrupted {sp : Spec} {op : Op} (h : (sp.step op).2 = .wrote (-3) ∨ ∃ iov buf, (sp.step op).2 = .read (-3) iov buf) :
    op.interrupted = true := by
  have wo : ∀ {r : Spec.WRes} {rc : Int}, r.out = .wrote rc → r = .ret rc := by
    intro r rc hr
    cases r with
    | ret rc' => injection hr with hr; rw [hr]
    | wait => cases hr
  have wn : ∀ {r : Spec.WRes} {rc : Int} {iov buf}, r.out ≠ .read rc iov buf := by
    intro r rc iov buf hr; cases r <;> cases hr
  cases op with
  | writev k iov envF env =>
    unfold Spec.step at h
    dsimp only at h
    split at h
    · split at h
      · rcases h with h | ⟨_, _, h⟩ <;> cases h
      · dsimp only at h
        rcases h with h | ⟨_, _, h⟩
        · have := writev_m3 (wo h)
          simpa [Op.interrupted] using this
        · exact absurd h wn
    · rcases h with h | ⟨_, _, h⟩ <;> cases h
  | readv k buf niov env =>
    unfold Spec.step at h
    dsimp only at h
    split at h
    · split at h
      · rcases h with h | ⟨_, _, h⟩ <;> cases h
      · dsimp only at h
        rcases h with h | ⟨_, _, h⟩
        · exfalso
          unfold Spec.readv at h
          dsimp only at h
          repeat' split at h
          all_goals cases h
        · simpa [Op.interrupted] using readv_m3 h
    · rcases h with h | ⟨_, _, h⟩ <;> cases h
  | flush k wait env =>
    unfold Spec.step at h
    dsimp only at h
    split at h
    · split at h
      · rcases h with h | ⟨_, _, h⟩ <;> cases h
      · dsimp only at h
        rcases h with h | ⟨_, _, h⟩
        · simpa [Op.interrupted] using flush_m3 (wo h)
        · exact absurd h wn
    · rcases h with h | ⟨_, _, h⟩ <;> cases h
  | «open» k flags env =>
    exfalso
    unfold Spec.step at h
    dsimp only at h
    repeat' split at h
    all_goals rcases h with h | ⟨_, _, h⟩ <;> cases h
  | close k env =>
    exfalso
    unfold Spec.step at h
    dsimp only at h
    repeat' split at h
    all_goals rcases h with h | ⟨_, _, h⟩ <;> cases h
  | stat k reset env =>
    exfalso
    unfold Spec.step at h
    dsimp only at h
    repeat' split at h
    all_goals rcases h with h | ⟨_, _, h⟩ <;> cases h
  | farmStat k reset =>
    exfalso
    unfold Spec.step at h
    dsimp only at h
    repeat' split at h
    all_goals rcases h with h | ⟨_, _, h⟩ <;> cases h
  | appdata k get set sz env =>
    exfalso
    unfold Spec.step at h
    dsimp only at h
    repeat' split at h
    all_goals rcases h with h | ⟨_, _, h⟩ <;> cases h

/-- Handles of this kind wait in a set that exists from the beginning: readers, and writers that may wait in `shr_write`. -/
def Waiter (g : Flags) (f : Flags) : Prop := f.has SHR_RDONLY = true ∨ (f.has SHR_WRONLY = true ∧ f.has SHR_NONBLOCK = false ∧ g.has SHR_DROP = false)

theorem writev_canWait (sp : Spec) (k : Nat) (sh : SHandle) (ms : List Msg) (e1 e2 : Env) : (sp.writev k sh ms e1 e2).2.1.canWait = sh.canWait := by
  unfold Spec.writev
  dsimp only
  repeat' split
  all_goals rfl

theorem readv_canWait (sp : Spec) (sh : SHandle) (buf : List Byte) (niov : Nat) (env : Env) : (sp.readv sh buf niov env).2.1.canWait = sh.canWait := by
  unfold Spec.readv Spec.catchUp
  dsimp only
  repeat' split
  all_goals rfl

theorem flush_keeps (sp : Spec) (k : Nat) (sh : SHandle) (wait : Bool) (env : Env) :
    (sp.flush k sh wait env).2.1.flags = sh.flags ∧ (sh.canWait = true → (sp.flush k sh wait env).2.1.canWait = true) := by
  unfold Spec.flush
  dsimp only
  repeat' split
  all_goals refine ⟨rfl, fun h => ?_⟩
  all_goals first | exact h | (show (_ || _) = true; rw [h]; rfl)

theorem writev_gflags (sp : Spec) (k : Nat) (sh : SHandle) (ms : List Msg) (e1 e2 : Env) : (sp.writev k sh ms e1 e2).1.gflags = sp.gflags := by
  unfold Spec.writev
  dsimp only
  repeat' split
  all_goals first | rfl | exact tryWrite_gflags _ _ _ _ _ | (rw [tryWrite_gflags]; exact tryWrite_gflags _ _ _ _ _)

/-- What holds of every handle: if it is one of those, it can wait. -/
def CanW (sp : Spec) : Prop := ∀ k sh, sp.hs k = .live sh → Waiter sp.gflags sh.flags → sh.canWait = true

/-- What a call does to handles: the flags stay, and a handle that can wait can still. -/
theorem step_keeps {sp : Spec} {op : Op} {k : Nat} {sh : SHandle} (h : (sp.step op).1.hs k = .live sh) :
    (∃ sh0, sp.hs k = .live sh0 ∧ sh.flags = sh0.flags ∧ (sh0.canWait = true → sh.canWait = true)) ∨
    (sp.hs k = .never ∧ (Waiter sp.gflags sh.flags → sh.canWait = true)) := by
  have key : ∀ {j : Nat} {v : Life SHandle (List Msg)} {sh0 : SHandle}, upd sp.hs j v k = .live sh → (sp.hs j = .live sh0) →
      (∀ sh1, v = .live sh1 → sh1.flags = sh0.flags ∧ (sh0.canWait = true → sh1.canWait = true)) →
      (∃ sh0, sp.hs k = .live sh0 ∧ sh.flags = sh0.flags ∧ (sh0.canWait = true → sh.canWait = true)) := by
    intro j v sh0 h hj hv
    by_cases e : k = j
    · subst e
      rw [upd_same'] at h
      exact ⟨sh0, hj, hv sh h⟩
    · rw [upd_other _ _ e] at h
      exact ⟨sh, h, rfl, id⟩
  cases op with
  | «open» j flags env =>
    unfold Spec.step at h
    dsimp only at h
    split at h
    · rename_i hj
      split at h
      · exact .inl ⟨sh, h, rfl, id⟩
      split at h
      · exact .inl ⟨sh, h, rfl, id⟩
      · rename_i sh1 ho
        dsimp only at h
        by_cases e : k = j
        · subst e
          rw [upd_same'] at h
          injection h with h
          subst h
          refine .inr ⟨hj, ?_⟩
          unfold Spec.openH at ho
          dsimp only at ho
          split at ho
          · cases ho
          · injection ho with ho
            rw [← ho]
            intro hw
            dsimp only at hw ⊢
            rcases hw with hw | ⟨h1, h2, h3⟩
            · rw [hw]; rfl
            · have : sp.drop = false := h3
              rw [h1, h2, this]; simp
        · rw [upd_other _ _ e] at h
          exact .inl ⟨sh, h, rfl, id⟩
    · exact .inl ⟨sh, h, rfl, id⟩
  | writev j iov envF env =>
    unfold Spec.step at h
    dsimp only at h
    split at h
    · rename_i sh0 hj
      split at h
      · exact .inl ⟨sh, h, rfl, id⟩
      · left
        refine key h hj ?_
        rintro sh1 ⟨rfl⟩
        exact ⟨writev_flags _ _ _ _ _ _, fun hc => by rw [writev_canWait]; exact hc⟩
    · exact .inl ⟨sh, h, rfl, id⟩
  | readv j buf niov env =>
    unfold Spec.step at h
    dsimp only at h
    split at h
    · rename_i sh0 hj
      split at h
      · exact .inl ⟨sh, h, rfl, id⟩
      · left
        refine key h hj ?_
        rintro sh1 ⟨rfl⟩
        exact ⟨readv_flags _ _ _ _ _, fun hc => by rw [readv_canWait]; exact hc⟩
    · exact .inl ⟨sh, h, rfl, id⟩
  | flush j wait env =>
    unfold Spec.step at h
    dsimp only at h
    split at h
    · rename_i sh0 hj
      split at h
      · exact .inl ⟨sh, h, rfl, id⟩
      · left
        refine key h hj ?_
        rintro sh1 ⟨rfl⟩
        exact flush_keeps _ _ _ _ _
    · exact .inl ⟨sh, h, rfl, id⟩
  | close j env =>
    unfold Spec.step at h
    dsimp only at h
    split at h
    · rename_i sh0 hj
      split at h
      · dsimp only at h
        have : (sp.flush j sh0 false env).1.hs = sp.hs := by
          unfold Spec.flush Spec.tryWrite
          dsimp only
          repeat' split
          all_goals rfl
        rw [this] at h
        exact .inl ⟨sh, h, rfl, id⟩
      · left
        refine key h hj ?_
        rintro sh1 ⟨⟩
    · exact .inl ⟨sh, h, rfl, id⟩
  | stat j reset env =>
    unfold Spec.step at h
    dsimp only at h
    repeat' split at h
    all_goals exact .inl ⟨sh, h, rfl, id⟩
  | farmStat j reset =>
    unfold Spec.step at h
    dsimp only at h
    split at h
    · rename_i sh0 hj
      split at h
      · exact .inl ⟨sh, h, rfl, id⟩
      · left
        refine key h hj ?_
        rintro sh1 ⟨rfl⟩
        split <;> exact ⟨rfl, id⟩
    · exact .inl ⟨sh, h, rfl, id⟩
  | appdata j get set sz env =>
    unfold Spec.step at h
    dsimp only at h
    split at h
    · dsimp only at h
      have : (sp.appdata get set sz env).1.hs = sp.hs := by
        unfold Spec.appdata
        dsimp only
        repeat' split
        all_goals rfl
      rw [this] at h
      exact .inl ⟨sh, h, rfl, id⟩
    · exact .inl ⟨sh, h, rfl, id⟩

/-! ## The invariant -/

theorem canW_spec (a : InitArgs) (ops : List Op) : CanW (specAfter a ops) := by
  induction ops using snoc_induction with
  | h0 => intro k sh h; cases h
  | h1 ops op ih =>
    rw [specAfter_snoc]
    intro k sh h hw
    have hg : ((specAfter a ops).step op).1.gflags = (specAfter a ops).gflags := by
      have h1 := (spec_params a ops).2.2
      have h2 := (spec_params a (ops ++ [op])).2.2
      have h3 := specAfter_snoc a ops op
      unfold specAfter at h3 ⊢
      rw [← h3, h2, h1]
    rw [hg] at hw
    rcases step_keeps h with ⟨sh0, h0, hf, hc⟩ | ⟨_, hc⟩
    · rw [hf] at hw
      exact hc (ih k sh0 h0 hw)
    · exact hc hw

/-- A successful `shr_ctl(s, SHR_POLLFD, fd)` on handle `k` in a history. -/
def Added (hist : List (COp × Polls × COut)) (k fd : Nat) : Prop := ∃ ok p, (COp.ctl k SHR_POLLFD fd ok, p, COut.ctl 0) ∈ hist

structure CtlInv (a : InitArgs) (c : CtlSys) (hist : List (COp × Polls × COut)) : Prop where
  run : ∃ outs, (Sys.init a).run (apiOps hist) = .ok (c.sys, outs)
  into : ∀ k fd, Added hist k fd → c.sys.hs k ≠ .never ∧ ∀ h, c.sys.hs k = .live h → Waiter a.gflags h.flags → fd ∈ c.ep k
  from_ : ∀ k fd, fd ∈ c.ep k → Added hist k fd

theorem apiOps_api (hist : List (COp × Polls × COut)) (op : Op) (p : Polls) (o : COut) :
    apiOps (hist ++ [(.api op, p, o)]) = apiOps hist ++ [op] := by simp [apiOps]

theorem apiOps_ctl (hist : List (COp × Polls × COut)) (k : Nat) (flag : Flags) (fd : Nat) (ok : Bool) (p : Polls) (o : COut) :
    apiOps (hist ++ [(.ctl k flag fd ok, p, o)]) = apiOps hist := by simp [apiOps]

theorem Added.snoc {hist : List (COp × Polls × COut)} {k fd : Nat} (h : Added hist k fd) (x : COp × Polls × COut) : Added (hist ++ [x]) k fd := by
  obtain ⟨ok, p, h⟩ := h
  exact ⟨ok, p, by simp [h]⟩

theorem Added.of_snoc {hist : List (COp × Polls × COut)} {k fd : Nat} {x : COp × Polls × COut} (h : Added (hist ++ [x]) k fd) :
    Added hist k fd ∨ ∃ ok p, x = (.ctl k SHR_POLLFD fd ok, p, .ctl 0) := by
  obtain ⟨ok, p, h⟩ := h
  simp only [List.mem_append, List.mem_singleton] at h
  rcases h with h | h
  · exact .inl ⟨ok, p, h⟩
  · exact .inr ⟨ok, p, h.symm⟩

theorem CtlSys.step_api {c c' : CtlSys} {op : Op} {o : Out} (h : c.step (.api op) = .ok (c', .api o)) :
    c.sys.step op = .ok (c'.sys, o) ∧ c'.ep = c.ep := by
  unfold CtlSys.step at h
  dsimp only at h
  split at h
  · cases h
  · rename_i s o' hs
    cases h
    exact ⟨hs, rfl⟩

theorem run_snoc {s s1 s2 : Sys} {ops : List Op} {op : Op} {outs : List Out} {o : Out} (h : s.run ops = .ok (s1, outs))
    (h2 : s1.step op = .ok (s2, o)) : s.run (ops ++ [op]) = .ok (s2, outs ++ [o]) := by
  rw [sys_run_append, h]
  dsimp only [Sys.run]
  rw [h2]

theorem Rel.of_live {s : Sys} {sp : Spec} (h : Rel s sp) {k : Nat} {sh : SHandle} (hk : sp.hs k = .live sh) :
    ∃ hd, s.hs k = .live hd ∧ HRel sp hd sh := by
  have := h.hs k
  rw [hk] at this
  cases e : s.hs k with
  | live hd => rw [e] at this; exact ⟨hd, rfl, this⟩
  | never => rw [e] at this; exact this.elim
  | gone x => rw [e] at this; exact this.elim

theorem Rel.never_iff {s : Sys} {sp : Spec} (h : Rel s sp) (k : Nat) : s.hs k = .never ↔ sp.hs k = .never := by
  have := h.hs k
  cases e : s.hs k <;> cases e' : sp.hs k <;> rw [e, e'] at this <;> simp_all [LRel]

theorem ctl_inv {a : InitArgs} {c : CtlSys} {hist : List (COp × Polls × COut)} (h : CtlRun a c hist) :
    Valid a (apiOps hist) → CtlInv a c hist := by
  induction h with
  | init => intro _; exact ⟨⟨[], rfl⟩, (by rintro k fd ⟨_, _, h⟩; cases h), (by intro k fd h; cases h)⟩
  | @api c c' hist op o p hr hs he ih =>
    intro v
    rw [apiOps_api] at v
    obtain ⟨⟨outs, e⟩, i1, i2⟩ := ih v.left
    obtain ⟨s1, s2⟩ := CtlSys.step_api hs
    obtain ⟨sp, at1⟩ := v.at e s1
    refine ⟨⟨outs ++ [o], by rw [apiOps_api]; exact run_snoc e s1⟩, ?_, ?_⟩
    · intro k fd hk
      rcases hk.of_snoc with hk | ⟨ok, p', hx⟩
      · obtain ⟨n1, n2⟩ := i1 k fd hk
        have n3 : sp.hs k ≠ .never := fun e => n1 ((at1.rel.never_iff k).2 e)
        refine ⟨fun e => n3 (step_never _ _ _ ((at1.rel'.never_iff k).1 e)), ?_⟩
        intro h hl hw
        obtain ⟨sh, l1, l2⟩ := at1.rel'.live hl
        rcases step_keeps l1 with ⟨sh0, h0, hf, _⟩ | ⟨h0, _⟩
        · obtain ⟨hd0, d1, d2⟩ := at1.rel.of_live h0
          rw [s2]
          refine n2 hd0 d1 ?_
          rw [d2.flags, ← hf, ← l2.flags]
          exact hw
        · exact absurd h0 n3
      · cases hx
    · intro k fd hk
      rw [s2] at hk
      exact (i2 k fd hk).snoc _
  | @ctl c c' hist k flag fd ok o p hr hs ih =>
    intro v
    rw [apiOps_ctl] at v
    obtain ⟨⟨outs, e⟩, i1, i2⟩ := ih v
    obtain ⟨sp, at1, hsp, _⟩ := v.state e
    unfold CtlSys.step at hs
    dsimp only at hs
    cases hl : c.sys.hs k with
    | never =>
      rw [hl] at hs
      injection hs with hs; injection hs with hs ho; subst hs; subst ho
      refine ⟨⟨outs, by rw [apiOps_ctl]; exact e⟩, ?_, fun k' fd' hk => (i2 k' fd' hk).snoc _⟩
      intro k' fd' hk
      rcases hk.of_snoc with hk | ⟨ok', p', hx⟩
      · exact i1 k' fd' hk
      · cases hx
    | gone x =>
      rw [hl] at hs
      injection hs with hs; injection hs with hs ho; subst hs; subst ho
      refine ⟨⟨outs, by rw [apiOps_ctl]; exact e⟩, ?_, fun k' fd' hk => (i2 k' fd' hk).snoc _⟩
      intro k' fd' hk
      rcases hk.of_snoc with hk | ⟨ok', p', hx⟩
      · exact i1 k' fd' hk
      · cases hx
    | live h =>
      rw [hl] at hs
      injection hs with hs; injection hs with hs ho; subst hs; subst ho
      refine ⟨⟨outs, ?_⟩, ?_, ?_⟩
      · rw [apiOps_ctl, e]; split <;> rfl
      · intro k' fd' hk
        rcases hk.of_snoc with hk | ⟨ok', p', hx⟩
        · obtain ⟨n1, n2⟩ := i1 k' fd' hk
          split
          · refine ⟨n1, fun h' hl' hw => ?_⟩
            have := n2 h' hl' hw
            dsimp only
            by_cases ek : k' = k
            · subst ek; rw [upd_same']; exact List.mem_cons_of_mem _ this
            · rw [upd_other _ _ ek]; exact this
          · exact ⟨n1, n2⟩
        · injection hx with hx1 hx2
          injection hx1 with ek ef efd eok
          subst ek; subst ef; subst efd; subst eok
          injection hx2 with _ hx2
          injection hx2 with hx2
          refine ⟨?_, fun h' hl' hw => ?_⟩
          · split
            · dsimp only; rw [hl]; exact fun h => by cases h
            · rw [hl]; exact fun h => by cases h
          · have hl'' : c.sys.hs k = .live h' := by
              rw [← hl']; split <;> rfl
            rw [hl] at hl''
            injection hl'' with hh
            subst hh
            obtain ⟨sh, l1, l2⟩ := at1.rel.live hl
            have hset : h.hasSet = true := by
              unfold Handle.hasSet
              rcases hw with hw | hw
              · rw [hw]; simp
              · have hc : sh.canWait = true := by
                  have := canW_spec a (apiOps hist)
                  unfold specAfter at this
                  rw [← hsp] at this
                  refine this k sh l1 (.inr ?_)
                  rw [at1.gf, ← l2.flags]; exact hw
                rw [hw.1, l2.r2w, hc]; rfl
            have hok : ok = true := by
              unfold shr_ctl at hx2
              rw [if_pos rfl] at hx2
              unfold Handle.hasSet at hset
              dsimp only at hx2
              rw [hset] at hx2
              cases ok with
              | true => rfl
              | false => simp at hx2
            rw [if_pos ⟨rfl, hset, hok⟩]
            dsimp only
            rw [upd_same']
            exact List.mem_cons_self
      · intro k' fd' hk
        split at hk
        · rename_i hc
          dsimp only at hk
          by_cases ek : k' = k
          · subst ek
            rw [upd_same'] at hk
            rcases List.mem_cons.1 hk with rfl | hk
            · refine ⟨ok, p, ?_⟩
              have : shr_ctl h flag ok = 0 := by
                unfold shr_ctl
                rw [if_pos hc.1]; dsimp only; rw [hc.2.2]; simp
              rw [this, hc.1]
              simp
            · exact (i2 _ _ hk).snoc _
          · rw [upd_other _ _ ek] at hk
            exact (i2 _ _ hk).snoc _
        · exact (i2 _ _ hk).snoc _

/-! ## C66 -/

/-- The call returned -3. -/
def Interrupted (o : Out) : Prop := o = .wrote (-3) ∨ ∃ iov buf, o = .read (-3) iov buf

/-- **C66**: a call returns -3 only if a descriptor that was added to this very handle by a successful `shr_ctl(s, SHR_POLLFD, fd)` is ready. -/
theorem C66_only_added {a : InitArgs} {c c' : CtlSys} {hist : List (COp × Polls × COut)} {op : Op} {o : Out} {p : Polls}
    (hr : CtlRun a c hist) (v : Valid a (apiOps hist ++ [op])) (hs : c.step (.api op) = .ok (c', .api o)) (he : EpollFits c p op o)
    (h3 : Interrupted o) : ∃ fd, Added hist op.handle fd ∧ p.ready fd = true := by
  have inv := ctl_inv hr v.left
  obtain ⟨outs, e⟩ := inv.run
  obtain ⟨sp, at1⟩ := v.at e (CtlSys.step_api hs).1
  unfold Interrupted at h3
  rw [at1.out] at h3
  obtain ⟨fd, h1, h2⟩ := he.1 (m3_interrupted h3)
  exact ⟨fd, inv.from_ _ _ h1, h2⟩

/-- **C66** (partial: for readers, and for writers opened without SHR_NONBLOCK on a ring without SHR_DROP; for the other writers, which may wait in
`shr_flush(s, 1)`, see the counterexample): after `shr_ctl(s, SHR_POLLFD, fd)` has returned 0, no call on the handle stays
waiting while the descriptor is ready, unless the listening socket is ready too and the call is about to try again. -/
theorem C66_interrupts_partial {a : InitArgs} {c c' : CtlSys} {hist : List (COp × Polls × COut)} {op : Op} {o : Out} {p : Polls} {fd : Nat} {h : Handle}
    (hr : CtlRun a c hist) (v : Valid a (apiOps hist)) (_hs : c.step (.api op) = .ok (c', .api o)) (he : EpollFits c p op o)
    (hl : c.sys.hs op.handle = .live h) (hw : h.flags.has SHR_RDONLY = true ∨
      (h.flags.has SHR_WRONLY = true ∧ h.flags.has SHR_NONBLOCK = false ∧ a.gflags.has SHR_DROP = false))
    (hadd : Added hist op.handle fd) (hrd : p.ready fd = true) (hd : p.dgram = false) : o ≠ .blocked := by
  intro hb
  have inv := ctl_inv hr v
  rcases he.2 hb with h1 | h1
  · rw [hd] at h1; cases h1
  · have := h1 fd ((inv.into _ _ hadd).2 h hl hw)
    rw [hrd] at this; cases this

/-- **C66**: `shr_ctl` with any other flag returns -1 and changes nothing. -/
theorem C66_unknown_flag {c : CtlSys} {k : Nat} {h : Handle} (hl : c.sys.hs k = .live h) {flag : Flags} (hf : flag ≠ SHR_POLLFD) (fd : Nat) (ok : Bool) :
    c.step (.ctl k flag fd ok) = .ok (c, .ctl (-1)) := by
  unfold CtlSys.step
  dsimp only
  rw [hl]
  dsimp only
  rw [if_neg (fun h => hf h.1)]
  unfold shr_ctl
  rw [if_neg hf]

/-- **C66**: `shr_ctl` never touches the ring or any handle, and on another handle it never changes what calls wait for. -/
theorem C66_other_handles {c c' : CtlSys} {k : Nat} {flag : Flags} {fd : Nat} {ok : Bool} {o : COut}
    (hs : c.step (.ctl k flag fd ok) = .ok (c', o)) : c'.sys = c.sys ∧ ∀ j, j ≠ k → c'.ep j = c.ep j := by
  unfold CtlSys.step at hs
  dsimp only at hs
  split at hs
  · injection hs with hs; injection hs with hs _; subst hs
    split
    · exact ⟨rfl, fun j hj => upd_other _ _ hj⟩
    · exact ⟨rfl, fun _ _ => rfl⟩
  · cases hs; exact ⟨rfl, fun _ _ => rfl⟩

/-! ## Cases -/

theorem ctl_step_api {a : InitArgs} {ops : List Op} {op : Op} (v : Valid a (ops ++ [op])) (ep : Nat → List Nat) :
    (CtlSys.mk (final a ops) ep).step (.api op) = .ok (⟨final a (ops ++ [op]), ep⟩, .api (lastOut a (ops ++ [op]))) := by
  unfold CtlSys.step
  dsimp only
  rw [v.steps]

/-- Calls of the library during which nothing is ready and none of which is interrupted or waits. -/
theorem ctl_run_api {a : InitArgs} {hist : List (COp × Polls × COut)} {ep : Nat → List Nat} {pre : List Op} (hp : apiOps hist = pre) :
    ∀ {ops : List Op}, Valid a (pre ++ ops) → CtlRun a ⟨final a pre, ep⟩ hist → ops.all (fun op => !op.interrupted) = true →
      Out.blocked ∉ (outsOf a (pre ++ ops)).drop pre.length →
      ∃ hist', CtlRun a ⟨final a (pre ++ ops), ep⟩ hist' ∧ apiOps hist' = pre ++ ops ∧ ∀ k fd, Added hist k fd → Added hist' k fd := by
  intro ops
  induction ops using snoc_induction with
  | h0 => intro v hr _ _; exact ⟨hist, by simpa using hr, by simpa using hp, fun _ _ h => h⟩
  | h1 ops op ih =>
    intro v hr hi hb
    rw [← List.append_assoc] at v hb ⊢
    have e : outsOf a (pre ++ ops ++ [op]) = outsOf a (pre ++ ops) ++ [lastOut a (pre ++ ops ++ [op])] := by
      have h1 := v.runs
      have h2 := run_snoc v.left.runs v.steps
      rw [h1] at h2
      injection h2 with h2
      injection h2
    have hlen : pre.length ≤ (outsOf a (pre ++ ops)).length := by
      rw [sys_run_length _ _ _ _ v.left.runs]; simp
    rw [e, List.drop_append_of_le_length hlen] at hb
    simp only [List.mem_append, List.mem_singleton, not_or] at hb
    simp only [List.all_append, List.all_cons, List.all_nil, Bool.and_true, Bool.and_eq_true] at hi
    obtain ⟨hist', r1, r2, r3⟩ := ih v.left hr hi.1 hb.1
    refine ⟨_, .api (p := ⟨fun _ => false, false⟩) r1 (ctl_step_api v ep) ⟨fun h => ?_, fun h => absurd h.symm hb.2⟩, ?_, fun k fd h => (r3 k fd h).snoc _⟩
    · have := hi.2; rw [h] at this; cases this
    · rw [apiOps_api, r2]

/-- A successful `shr_ctl`. -/
theorem ctl_run_ctl {a : InitArgs} {hist : List (COp × Polls × COut)} {ep : Nat → List Nat} {pre : List Op} (hr : CtlRun a ⟨final a pre, ep⟩ hist)
    (hp : apiOps hist = pre) (k fd : Nat) {h : Handle} (hl : (final a pre).hs k = .live h) :
    ∃ hist', CtlRun a ⟨final a pre, if h.hasSet = true then upd ep k (fd :: ep k) else ep⟩ hist' ∧ apiOps hist' = pre ∧ Added hist' k fd := by
  refine ⟨hist ++ [(.ctl k SHR_POLLFD fd true, ⟨fun _ => false, false⟩, .ctl 0)], ?_, ?_, true, ⟨fun _ => false, false⟩, by simp⟩
  · refine .ctl hr ?_
    unfold CtlSys.step
    dsimp only
    rw [hl]
    dsimp only
    have : shr_ctl h SHR_POLLFD true = 0 := by unfold shr_ctl; simp
    rw [this]
    cases h.hasSet <;> simp
  · rw [apiOps_ctl, hp]

/-- A blocking reader 1; `shr_ctl` adds descriptor 7; a read of the empty ring returns -3. -/
def ctlPre : List Op := [opn 0 (SHR_WRONLY ||| SHR_NONBLOCK), opn 1 SHR_RDONLY]

theorem ctlDemo : ∃ hist, CtlRun demoA ⟨final demoA ctlPre, upd (fun _ => []) 1 [7]⟩ hist ∧ apiOps hist = ctlPre ∧ Added hist 1 7 := by
  have v : Valid demoA ([] ++ ctlPre) := valid_of (by decide +kernel)
  obtain ⟨h1, r1, r2, -⟩ := ctl_run_api (a := demoA) (hist := []) (ep := fun _ => []) (pre := []) rfl (ops := ctlPre) v .init (by decide +kernel) (by decide +kernel)
  obtain ⟨h2, q1, q2, q3⟩ := ctl_run_ctl r1 r2 1 7 (h := (final demoA ctlPre).handle 1) (live_handle (by decide +kernel))
  have : ((final demoA ctlPre).handle 1).hasSet = true := by decide +kernel
  rw [if_pos this] at q1
  exact ⟨h2, q1, q2, q3⟩

example : ∃ hist c' p, Valid demoA (apiOps hist ++ [Op.readv 1 [0, 0] 1 { waitRc := some .pollfd }]) ∧
    CtlRun demoA ⟨final demoA ctlPre, upd (fun _ => []) 1 [7]⟩ hist ∧
    (CtlSys.mk (final demoA ctlPre) (upd (fun _ => []) 1 [7])).step (.api (Op.readv 1 [0, 0] 1 { waitRc := some .pollfd })) =
      .ok (c', .api (.read (-3) [] [0, 0])) ∧
    EpollFits ⟨final demoA ctlPre, upd (fun _ => []) 1 [7]⟩ p (Op.readv 1 [0, 0] 1 { waitRc := some .pollfd }) (.read (-3) [] [0, 0]) ∧
    Interrupted (.read (-3) [] [0, 0]) ∧ Added hist 1 7 ∧ p.ready 7 = true := by
  obtain ⟨hist, h1, h2, h3⟩ := ctlDemo
  have v : Valid demoA (ctlPre ++ [Op.readv 1 [0, 0] 1 { waitRc := some .pollfd }]) := valid_of (by decide +kernel)
  have s := ctl_step_api v (upd (fun _ => []) 1 [7])
  rw [show lastOut demoA (ctlPre ++ [Op.readv 1 [0, 0] 1 { waitRc := some .pollfd }]) = .read (-3) [] [0, 0] by decide +kernel] at s
  refine ⟨hist, _, ⟨fun fd => fd == 7, false⟩, by rw [h2]; exact v, h1, s, ⟨fun _ => ⟨7, ?_, rfl⟩, fun h => by cases h⟩, .inr ⟨_, _, rfl⟩, h3, rfl⟩
  show 7 ∈ upd (fun _ => []) 1 [7] 1
  rw [upd_same']; simp

/-- The hypotheses of `C66_interrupts_partial` (here the read may only wait because the descriptor is not ready). -/
example : ∃ hist c' p, Valid demoA (apiOps hist) ∧ CtlRun demoA ⟨final demoA ctlPre, upd (fun _ => []) 1 [7]⟩ hist ∧
    (CtlSys.mk (final demoA ctlPre) (upd (fun _ => []) 1 [7])).step (.api (Op.readv 1 [0, 0] 1 {})) = .ok (c', .api .blocked) ∧
    EpollFits ⟨final demoA ctlPre, upd (fun _ => []) 1 [7]⟩ p (Op.readv 1 [0, 0] 1 {}) .blocked ∧ Added hist 1 7 ∧ p.dgram = false ∧
    (final demoA ctlPre).hs 1 = .live ((final demoA ctlPre).handle 1) ∧ ((final demoA ctlPre).handle 1).flags.has SHR_RDONLY = true := by
  obtain ⟨hist, h1, h2, h3⟩ := ctlDemo
  have v : Valid demoA (ctlPre ++ [Op.readv 1 [0, 0] 1 {}]) := valid_of (by decide +kernel)
  have s := ctl_step_api v (upd (fun _ => []) 1 [7])
  rw [show lastOut demoA (ctlPre ++ [Op.readv 1 [0, 0] 1 {}]) = .blocked by decide +kernel] at s
  exact ⟨hist, _, ⟨fun _ => false, false⟩, by rw [h2]; exact v.left, h1, s, ⟨fun h => by simp [Op.interrupted] at h, fun _ => .inr fun _ _ => rfl⟩, h3, rfl,
    live_handle (by decide +kernel), by decide +kernel⟩

example : (CtlSys.mk (final demoA ctlPre) fun _ => []).step (.ctl 1 0x7#32 3 true) = .ok (⟨final demoA ctlPre, fun _ => []⟩, .ctl (-1)) :=
  C66_unknown_flag (h := (final demoA ctlPre).handle 1) (live_handle (by decide +kernel)) (by decide) 3 true

/-- **C66** fails for a buffered writer opened with SHR_NONBLOCK: `shr_ctl` returns 0 and does nothing, since the handle has no set yet; the set is
created by the first `shr_flush(s, 1)`, which then waits on a full ring although the descriptor is ready. -/
theorem C66_counterexample : ∃ (a : InitArgs) (hist : List (COp × Polls × COut)) (c c' : CtlSys) (p : Polls) (k fd : Nat),
    CtlRun a c hist ∧ Valid a (apiOps hist ++ [Op.flush k true {}]) ∧ c.step (.api (Op.flush k true {})) = .ok (c', .api .blocked) ∧
    EpollFits c p (Op.flush k true {}) .blocked ∧ Added hist k fd ∧ p.ready fd = true ∧ p.dgram = false := by
  have v0 : Valid demoA ([] ++ [opn 0 (SHR_WRONLY ||| SHR_NONBLOCK ||| SHR_BUFFERED), opn 1 (SHR_WRONLY ||| SHR_NONBLOCK)]) := valid_of (by decide +kernel)
  obtain ⟨h1, r1, r2, -⟩ := ctl_run_api (a := demoA) (hist := []) (ep := fun _ => []) (pre := []) rfl v0 .init (by decide +kernel) (by decide +kernel)
  obtain ⟨h2, q1, q2, q3⟩ := ctl_run_ctl r1 r2 0 7 (live_handle (by decide +kernel))
  rw [if_neg (by decide +kernel)] at q1
  have v1 : Valid demoA (([] ++ [opn 0 (SHR_WRONLY ||| SHR_NONBLOCK ||| SHR_BUFFERED), opn 1 (SHR_WRONLY ||| SHR_NONBLOCK)]) ++
      [wr 1 [[1, 2, 3, 4, 5, 6, 7, 8, 9, 10]], wr 0 [[11]]]) := valid_of (by decide +kernel)
  obtain ⟨h3, t1, t2, t3⟩ := ctl_run_api q2 v1 q1 (by decide +kernel) (by decide +kernel)
  have v2 : Valid demoA ((([] ++ [opn 0 (SHR_WRONLY ||| SHR_NONBLOCK ||| SHR_BUFFERED), opn 1 (SHR_WRONLY ||| SHR_NONBLOCK)]) ++
      [wr 1 [[1, 2, 3, 4, 5, 6, 7, 8, 9, 10]], wr 0 [[11]]]) ++ [Op.flush 0 true {}]) := valid_of (by decide +kernel)
  have s := ctl_step_api v2 (fun _ => [])
  rw [show lastOut demoA ((([] ++ [opn 0 (SHR_WRONLY ||| SHR_NONBLOCK ||| SHR_BUFFERED), opn 1 (SHR_WRONLY ||| SHR_NONBLOCK)]) ++
      [wr 1 [[1, 2, 3, 4, 5, 6, 7, 8, 9, 10]], wr 0 [[11]]]) ++ [Op.flush 0 true {}]) = .blocked by decide +kernel] at s
  exact ⟨demoA, h3, _, _, ⟨fun fd => fd == 7, false⟩, 0, 7, t1, by rw [t2]; exact v2, s,
    ⟨fun h => by simp [Op.interrupted] at h, fun _ => .inr fun fd h => by cases h⟩, t3 0 7 q3, rfl, rfl⟩

end Shr
