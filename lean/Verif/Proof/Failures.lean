import Verif.Proof.FarmInv
import Verif.Spec.Failures
/-! # Accounts of calls whose wake-up or msync fails -/
namespace Shr

/-- `new` was put into the ring, and counted except for `unc`. -/
structure PutIn (sp sp' : Spec) (k : Nat) (new unc : List Msg) : Prop where
  tlog : sp'.tlog = sp.tlog ++ new.map fun m => (k, m)
  mw : sp'.st.mw + unc.length = sp.st.mw + new.length
  bw : sp'.st.bw + bytesOf unc = sp.st.bw + bytesOf new

theorem PutIn.pair {sp sp' : Spec} {k : Nat} {new unc : List Msg} {p : Prop} (h : PutIn sp sp' k new unc) :
    sp'.tlog = sp.tlog ++ (new.map fun m => (k, m)) ∧ (p → PutIn sp sp' k new unc) := ⟨h.tlog, fun _ => h⟩

theorem PutIn.refl (sp : Spec) (k : Nat) : PutIn sp sp k [] [] := ⟨by simp, rfl, rfl⟩

theorem PutIn.trans {sp s1 s2 : Spec} {k : Nat} {n1 u1 n2 u2 : List Msg} (h1 : PutIn sp s1 k n1 u1)
    (h2 : PutIn s1 s2 k n2 u2) : PutIn sp s2 k (n1 ++ n2) (u1 ++ u2) where
  tlog := by rw [h2.tlog, h1.tlog, List.map_append, List.append_assoc]
  mw := by have := h1.mw; have := h2.mw; simp; omega
  bw := by have := h1.bw; have := h2.bw; simp; omega

theorem PutIn.hs {sp sp' : Spec} {k : Nat} {new unc : List Msg} (h : PutIn sp sp' k new unc)
    (f : Nat → Life SHandle (List Msg)) : PutIn sp { sp' with hs := f } k new unc := ⟨h.tlog, h.mw, h.bw⟩

theorem commit_putIn (sp : Spec) (k : Nat) (new : List Msg) (c : Bool) :
    PutIn sp (sp.commit k new c) k new (if c then [] else new) := by
  refine ⟨rfl, ?_, ?_⟩ <;> cases c <;> simp [Spec.commit]

/-- What an attempt to write does. -/
inductive TryDid (sp : Spec) (k : Nat) (new : List Msg) (e : Env) : Spec → Spec.WRes → Prop where
  | no (rc : Spec.WRes) (h : ∀ r : Int, rc = .ret r → r ≤ 0) : TryDid sp k new e sp rc
  | done (sp' : Spec) (h : PutIn sp sp' k new []) (h1 : e.wakeOk = true) : TryDid sp k new e sp' (.ret (bytesOf new))
  | bad (sp' : Spec) (h : PutIn sp sp' k new (if e.wakeOk then [] else new)) (h1 : ¬ e.good) : TryDid sp k new e sp' (.ret (-1))

theorem tryDid (sp : Spec) (k : Nat) (nb : Bool) (new : List Msg) (e : Env) :
    TryDid sp k new e (sp.tryWrite k nb new e).1 (sp.tryWrite k nb new e).2 := by
  have hc := tryCase sp k nb new e
  generalize sp.tryWrite k nb new e = y at *
  cases hc with
  | no rc h => exact .no _ (by intro r e; cases e; omega)
  | full => exact .no _ (by intro r e; cases e; omega)
  | wait => exact .no _ (by intro r e; cases e)
  | done _ _ hw => exact .done _ (commit_putIn sp k new true) hw
  | bad _ _ hg => exact .bad _ (commit_putIn _ _ _ _) hg

theorem WRes.out_le {rc : Spec.WRes} (h : ∀ r : Int, rc = .ret r → r ≤ 0) : ∀ r : Int, rc.out = .wrote r → r ≤ 0 := by
  intro r e
  cases rc with
  | wait => cases e
  | ret r' => exact h r (by cases e; rfl)

theorem writev_did (sp : Spec) (k : Nat) (sh : SHandle) (iov : List Msg) (envF env : Env)
    (hne : ∀ b ∈ sh.pend, b ≠ []) (hub : sh.flags.has SHR_BUFFERED = false → sh.pend = []) :
    ∃ new unc, PutIn sp (sp.writev k sh iov envF env).1 k new unc ∧
      WriteDid iov envF env sh.pend (sp.writev k sh iov envF env).2.2.out new unc (sp.writev k sh iov envF env).2.1.pend := by
  have direct : ∀ (s1 : Spec), 0 < bytesOf iov →
      ∃ new unc, PutIn s1 (s1.tryWrite k (sh.flags.has SHR_NONBLOCK) iov env).1 k new unc ∧
        ∀ c : List Msg, WriteDid iov envF env c (s1.tryWrite k (sh.flags.has SHR_NONBLOCK) iov env).2.out (c ++ new) unc [] := by
    intro s1 hpos
    have h := tryDid s1 k (sh.flags.has SHR_NONBLOCK) iov env
    generalize s1.tryWrite k (sh.flags.has SHR_NONBLOCK) iov env = y at *
    obtain ⟨s2, rc⟩ := y
    dsimp only at *
    cases h with
    | no _ h => exact ⟨[], [], .refl _ _, fun c => by rw [List.append_nil]; exact .flushed _ (WRes.out_le h)⟩
    | done _ h _ => exact ⟨iov, [], h, fun c => .accepted _ _ (by simp) (.inr (.inr rfl)) hpos⟩
    | bad _ h hg => exact ⟨iov, _, h, fun c => .writeFailed hg⟩
  unfold Spec.writev
  dsimp only
  by_cases hl : Legal sp.cap sp.maxm iov
  · have hpos : 0 < bytesOf iov := bytesOf_pos hl.2.1 hl.1
    rw [if_neg (by simp [hl])]
    by_cases hb : sh.flags.has SHR_BUFFERED = false
    · rw [if_pos hb]
      dsimp only
      rw [hub hb]
      obtain ⟨new, unc, h1, h2⟩ := direct sp hpos
      exact ⟨new, unc, h1, h2 []⟩
    · rw [if_neg hb]
      by_cases hc : Spec.cacheFits sh iov
      · rw [if_pos hc]
        exact ⟨[], [], .refl _ _, .accepted _ _ rfl (.inl rfl) hpos⟩
      · rw [if_neg hc]
        by_cases hp : sh.pend = []
        · rw [if_pos hp]
          dsimp only
          rw [hp]
          obtain ⟨new, unc, h1, h2⟩ := direct sp hpos
          exact ⟨new, unc, h1, h2 []⟩
        · rw [if_neg hp]
          have hppos : 0 < bytesOf sh.pend := bytesOf_pos hne hp
          have h := tryDid sp k (sh.flags.has SHR_NONBLOCK) sh.pend envF
          generalize sp.tryWrite k (sh.flags.has SHR_NONBLOCK) sh.pend envF = y at *
          obtain ⟨s1, rc⟩ := y
          dsimp only at *
          cases h with
          | no _ h =>
            cases rc with
            | wait => exact ⟨[], [], .refl _ _, .nothing _ (WRes.out_le h)⟩
            | ret r => dsimp only; rw [if_pos (h r rfl)]; exact ⟨[], [], .refl _ _, .nothing _ (WRes.out_le h)⟩
          | done _ h _ =>
            dsimp only
            rw [if_neg (by omega)]
            by_cases hc2 : Spec.cacheFits { sh with pend := [] } iov
            · rw [if_pos hc2]
              exact ⟨sh.pend, [], h, .accepted _ _ rfl (.inr (.inl rfl)) hpos⟩
            · rw [if_neg hc2]
              obtain ⟨new, unc, h1, h2⟩ := direct s1 hpos
              exact ⟨_, _, h.trans h1, h2 sh.pend⟩
          | bad _ h hg =>
            dsimp only
            rw [if_pos (by omega)]
            exact ⟨_, _, h, .flushFailed hg⟩
  · rw [if_pos hl]
    exact ⟨[], [], .refl _ _, .nothing _ (by intro r e; cases e; omega)⟩

theorem flush_did (sp : Spec) (k : Nat) (sh : SHandle) (wait : Bool) (env : Env) (hne : ∀ b ∈ sh.pend, b ≠ []) :
    ∃ new unc, PutIn sp (sp.flush k sh wait env).1 k new unc ∧
      FlushDid env sh.pend (sp.flush k sh wait env).2.2.out new unc (sp.flush k sh wait env).2.1.pend ∧
      (new = [] ∧ unc = [] ∨ new = sh.pend ∧ unc = (if env.wakeOk then [] else sh.pend) ∧ (sp.flush k sh wait env).2.2 ≠ .wait) := by
  unfold Spec.flush
  by_cases hp : sh.pend = []
  · rw [if_pos hp]
    exact ⟨[], [], .refl _ _, .nothing _ (by intro r e; cases e; omega), .inl ⟨rfl, rfl⟩⟩
  rw [if_neg hp]
  dsimp only
  split
  · exact ⟨[], [], .refl _ _, .nothing _ (by intro r e; cases e; omega), .inl ⟨rfl, rfl⟩⟩
  · have hppos : 0 < bytesOf sh.pend := bytesOf_pos hne hp
    have h := tryDid sp k (sh.flags.has SHR_NONBLOCK && !wait) sh.pend env
    generalize sp.tryWrite k (sh.flags.has SHR_NONBLOCK && !wait) sh.pend env = y at *
    obtain ⟨s1, rc⟩ := y
    dsimp only at *
    cases h with
    | no _ h =>
      refine ⟨[], [], .refl _ _, ?_, .inl ⟨rfl, rfl⟩⟩
      cases rc with
      | wait => exact .nothing _ (WRes.out_le h)
      | ret r =>
        dsimp only
        rw [if_neg (by have := h r rfl; omega)]
        exact .nothing _ (WRes.out_le h)
    | done _ h hw =>
      dsimp only
      rw [if_pos (by omega)]
      exact ⟨_, _, h, .done hp, .inr ⟨rfl, by rw [hw]; rfl, by simp⟩⟩
    | bad _ h hg =>
      dsimp only
      exact ⟨_, _, h, .failed hg, .inr ⟨rfl, rfl, by simp⟩⟩

/-- The messages cached by a handle, as its user knows them. -/
def cachedOf : Life SHandle (List Msg) → List Msg
  | .live sh => sh.pend
  | _ => []

/-- One call: what it put into the ring, and what of it is not counted. -/
theorem step_did {s : Sys} {sp : Spec} (op : Op) (hr : Rel s sp) :
    ∃ new unc, ((sp.step op).1.tlog = sp.tlog ++ (new.map fun m => (op.handle, m)) ∧
        ((∀ k t env, op ≠ .stat k (some t) env) → PutIn sp (sp.step op).1 op.handle new unc)) ∧
      CallDid op (sp.step op).2 (cachedOf (sp.hs op.handle)) new unc (cachedOf ((sp.step op).1.hs op.handle)) ∧
      ∀ j, j ≠ op.handle → (sp.step op).1.hs j = sp.hs j := by
  have hlive : ∀ k sh, sp.hs k = .live sh → (∀ b ∈ sh.pend, b ≠ []) ∧
      ((sh.flags.has SHR_WRONLY && sh.flags.has SHR_BUFFERED) = false → sh.pend = []) := by
    intro k sh hk
    have := hr.hs k
    rw [hk] at this
    cases h2 : s.hs k with
    | never => rw [h2] at this; exact this.elim
    | live hd => rw [h2] at this; exact ⟨this.cache.ne, this.pend_nil⟩
    | gone b => rw [h2] at this; exact this.elim
  have nowr : ∀ (o : Out), (∀ rc, o ≠ .wrote rc) → ∀ rc : Int, o = .wrote rc → rc ≤ 0 := fun o h rc e => absurd e (h rc)
  cases op with
  | writev k iov envF env =>
    unfold Spec.step
    dsimp only [Op.handle, CallDid]
    split
    · rename_i sh hk
      split
      · rw [hk]; exact ⟨[], [], (PutIn.refl _ _).pair, .nothing _ (nowr _ (by intros; simp)), fun _ _ => rfl⟩
      · rename_i hw
        have hw : sh.flags.has SHR_WRONLY = true := by simpa using hw
        obtain ⟨hne, hub⟩ := hlive k sh hk
        obtain ⟨new, unc, h1, h2⟩ := writev_did sp k sh iov envF env hne (by simpa [hw] using hub)
        refine ⟨new, unc, (h1.hs _).pair, ?_, fun j hj => upd_other _ _ hj⟩
        dsimp only; rw [upd_same, hk]; exact h2
    · exact ⟨[], [], (PutIn.refl _ _).pair, .nothing _ (nowr _ (by intros; simp)), fun _ _ => rfl⟩
  | flush k wait env =>
    unfold Spec.step
    dsimp only [Op.handle, CallDid]
    split
    · rename_i sh hk
      split
      · rw [hk]; exact ⟨[], [], (PutIn.refl _ _).pair, .nothing _ (nowr _ (by intros; simp)), fun _ _ => rfl⟩
      · obtain ⟨hne, hub⟩ := hlive k sh hk
        obtain ⟨new, unc, h1, h2, _⟩ := flush_did sp k sh wait env hne
        refine ⟨new, unc, (h1.hs _).pair, ?_, fun j hj => upd_other _ _ hj⟩
        dsimp only; rw [upd_same, hk]; exact h2
    · exact ⟨[], [], (PutIn.refl _ _).pair, .nothing _ (nowr _ (by intros; simp)), fun _ _ => rfl⟩
  | close k env =>
    unfold Spec.step
    dsimp only [Op.handle, CallDid]
    split
    · rename_i sh hk
      obtain ⟨hne, hub⟩ := hlive k sh hk
      obtain ⟨new, unc, h1, h2, h3⟩ := flush_did sp k sh false env hne
      have hh : (sp.flush k sh false env).1.hs = sp.hs := by
        obtain ⟨_, _, _, h⟩ := flush_wflow sp k sh false env hr.ring.fle hne
        exact h.hs
      split
      · rename_i hw
        rw [hw] at h2
        refine ⟨new, unc, h1.pair, ?_, fun j _ => by rw [hh]⟩
        rw [hh, hk]
        rcases h3 with ⟨rfl, rfl⟩ | ⟨_, _, h3⟩
        · exact .nothing _ (by simp)
        · exact absurd hw h3
      · refine ⟨new, unc, (h1.hs _).pair, ?_, fun j hj => upd_other _ _ hj⟩
        dsimp only; rw [upd_same, hk]
        rcases h3 with ⟨rfl, rfl⟩ | ⟨rfl, rfl, _⟩
        · exact .dropped
        · exact .flushed
    · exact ⟨[], [], (PutIn.refl _ _).pair, .nothing _ (by simp), fun _ _ => rfl⟩
  | «open» k flags env =>
    unfold Spec.step
    dsimp only [Op.handle, CallDid]
    split
    · rename_i hk
      split
      · exact ⟨[], [], (PutIn.refl _ _).pair, ⟨rfl, rfl, rfl⟩, fun _ _ => rfl⟩
      · split
        · exact ⟨[], [], (PutIn.refl _ _).pair, ⟨rfl, rfl, rfl⟩, fun _ _ => rfl⟩
        · rename_i sh heq
          have hp : sh.pend = [] := by
            unfold Spec.openH at heq
            dsimp only at heq
            split at heq
            · cases heq
            · cases heq; rfl
          refine ⟨[], [], ((PutIn.refl _ _).hs _).pair, ⟨rfl, rfl, ?_⟩, fun j hj => upd_other _ _ hj⟩
          dsimp only; rw [upd_same, hk]; exact hp
    · exact ⟨[], [], (PutIn.refl _ _).pair, ⟨rfl, rfl, rfl⟩, fun _ _ => rfl⟩
  | readv k buf niov env =>
    unfold Spec.step
    dsimp only [Op.handle, CallDid]
    split
    · rename_i sh hk
      split
      · exact ⟨[], [], (PutIn.refl _ _).pair, ⟨rfl, rfl, rfl⟩, fun _ _ => rfl⟩
      · refine ⟨[], [], PutIn.pair ⟨?_, ?_, ?_⟩, ⟨rfl, rfl, ?_⟩, fun j hj => upd_other _ _ hj⟩
        · unfold Spec.readv Spec.catchUp; dsimp only; repeat' split
          all_goals simp
        · unfold Spec.readv Spec.catchUp; dsimp only; repeat' split
          all_goals rfl
        · unfold Spec.readv Spec.catchUp; dsimp only; repeat' split
          all_goals rfl
        · dsimp only; rw [upd_same, hk]
          show (sp.readv sh buf niov env).2.1.pend = sh.pend
          unfold Spec.readv Spec.catchUp; dsimp only; repeat' split
          all_goals rfl
    · exact ⟨[], [], (PutIn.refl _ _).pair, ⟨rfl, rfl, rfl⟩, fun _ _ => rfl⟩
  | stat k reset env =>
    unfold Spec.step
    dsimp only [Op.handle, CallDid]
    split
    · rename_i sh hk
      split
      · exact ⟨[], [], (PutIn.refl _ _).pair, ⟨rfl, rfl, rfl⟩, fun _ _ => rfl⟩
      · cases reset with
        | none => exact ⟨[], [], (PutIn.refl _ _).pair, ⟨rfl, rfl, rfl⟩, fun _ _ => rfl⟩
        | some t => exact ⟨[], [], ⟨by simp, fun h => absurd rfl (h k t env)⟩, ⟨rfl, rfl, rfl⟩, fun _ _ => rfl⟩
    · exact ⟨[], [], (PutIn.refl _ _).pair, ⟨rfl, rfl, rfl⟩, fun _ _ => rfl⟩
  | farmStat k reset =>
    unfold Spec.step
    dsimp only [Op.handle, CallDid]
    split
    · rename_i sh hk
      split
      · exact ⟨[], [], (PutIn.refl _ _).pair, ⟨rfl, rfl, rfl⟩, fun _ _ => rfl⟩
      · refine ⟨[], [], ((PutIn.refl _ _).hs _).pair, ⟨rfl, rfl, ?_⟩, fun j hj => upd_other _ _ hj⟩
        dsimp only; rw [upd_same, hk]; split <;> rfl
    · exact ⟨[], [], (PutIn.refl _ _).pair, ⟨rfl, rfl, rfl⟩, fun _ _ => rfl⟩
  | appdata k get set sz env =>
    unfold Spec.step
    dsimp only [Op.handle, CallDid]
    split
    · unfold Spec.appdata
      dsimp only
      repeat' split
      all_goals exact ⟨[], [], PutIn.pair ⟨by simp, rfl, rfl⟩, ⟨rfl, rfl, rfl⟩, fun _ _ => rfl⟩
    · exact ⟨[], [], (PutIn.refl _ _).pair, ⟨rfl, rfl, rfl⟩, fun _ _ => rfl⟩

end Shr
