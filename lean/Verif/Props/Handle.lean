import Verif.Props.History
import Verif.Proof.Demo
/-! # Properties of handles: flushing, closing, modes, app data, persistence: C22, C25, C27 – C30 -/
namespace Shr

/-- What a flush can do. -/
inductive FlushCase (sp : Spec) (k : Nat) (sh : SHandle) (wait : Bool) (env : Env) :
    Spec × SHandle × Spec.WRes → Prop where
  | empty (h : sh.pend = []) : FlushCase sp k sh wait env (sp, sh, .ret 0)
  | noWait (h : sh.pend ≠ []) (h1 : sh.flags.has SHR_NONBLOCK = true ∧ wait = true ∧ (env.lockOk = false ∨ env.bwOpenOk = false)) :
      FlushCase sp k sh wait env (sp, sh, .ret (-1))
  | tried (h : sh.pend ≠ []) (y : Spec × Spec.WRes)
      (hc : TryCase sp k (sh.flags.has SHR_NONBLOCK && !wait) sh.pend env y) (sh' : SHandle)
      (hp : sh'.pend = match y.2 with | .ret rc => if rc > 0 then [] else sh.pend | .wait => sh.pend) :
      FlushCase sp k sh wait env (y.1, sh', y.2)

theorem flushCase (sp : Spec) (k : Nat) (sh : SHandle) (wait : Bool) (env : Env) :
    FlushCase sp k sh wait env (sp.flush k sh wait env) := by
  unfold Spec.flush
  by_cases hp : sh.pend = []
  · rw [if_pos hp]; exact .empty hp
  rw [if_neg hp]
  dsimp only
  by_cases h2 : (sh.flags.has SHR_NONBLOCK && wait) = true ∧ sh.canWait = false ∧ (env.lockOk = false ∨ env.bwOpenOk = false)
  · rw [if_pos h2]
    have := h2.1
    simp at this
    exact .noWait hp ⟨this.1, this.2, h2.2.2⟩
  · rw [if_neg h2]
    refine .tried hp (sp.tryWrite k (sh.flags.has SHR_NONBLOCK && !wait) sh.pend env) (tryCase _ _ _ _ _) _ ?_
    cases (sp.tryWrite k (sh.flags.has SHR_NONBLOCK && !wait) sh.pend env).2 with
    | wait => rfl
    | ret rc => dsimp only; split <;> rfl

theorem Rel.cached {s : Sys} {sp : Spec} (h : Rel s sp) {k : Nat} {sh : SHandle} (hk : sp.hs k = .live sh) :
    s.cached k = sh.pend := by
  have := h.hs k
  rw [hk] at this
  unfold Sys.cached
  cases e : s.hs k with
  | never => rw [e] at this; exact this.elim
  | gone b => rw [e] at this; exact this.elim
  | live hd => rw [e] at this; exact this.cache.msgs

theorem cached_live {s : Sys} {k : Nat} {h : Handle} (hk : s.hs k = .live h) : s.cached k = h.c.msgs := by
  unfold Sys.cached; rw [hk]

section
variable {a : InitArgs} {ops : List Op} {k : Nat} {env : Env}
  {s s' : Sys} {outs : List Out} {o : Out} {h h' : Handle}

/-- **C29.** No call, whatever its outcome, changes the mode of an open handle. -/
theorem C29_mode_unchanged {op : Op} (v : Valid a (ops ++ [op]))
    (hrun : (Sys.init a).run ops = .ok (s, outs)) (hstep : s.step op = .ok (s', o))
    (hk : s.hs k = .live h) (hk' : s'.hs k = .live h') : h'.flags = h.flags := by
  obtain ⟨sp, x⟩ := v.at hrun hstep
  obtain ⟨sh, e1, r1⟩ := x.rel.live hk
  obtain ⟨sh', e2, r2⟩ := x.rel'.live hk'
  rw [r1.flags, r2.flags]
  rcases step_flags sp op k sh' e2 with ⟨sh0, h0, e⟩ | ⟨h0, _⟩
  · rw [e1] at h0; cases h0; exact e
  · rw [e1] at h0; cases h0

/-- **C27.** A cache never holds more bytes than the ring, nor more messages than its maximum. -/
theorem C27_cache_bounds (v : Valid a ops) (hrun : (Sys.init a).run ops = .ok (s, outs)) (k : Nat) :
    bytesOf (s.cached k) ≤ a.dataSz ∧ (s.cached k).length ≤ a.max_msgs ∧ ∀ b ∈ s.cached k, b ≠ [] := by
  obtain ⟨sp, x, _, _⟩ := v.state hrun
  cases e : s.hs k with
  | never => unfold Sys.cached; rw [e]; simp
  | gone b => unfold Sys.cached; rw [e]; simp
  | live h =>
    obtain ⟨sh, e1, r1⟩ := x.rel.live e
    rw [x.rel.cached e1]
    have h1 := r1.cache.nle; have h2 := r1.csz; have h3 := r1.cache.vle; have h4 := r1.cvt
    rw [← x.cap, ← x.maxm]
    exact ⟨by omega, by omega, r1.cache.ne⟩

/-- **C27.** A flush of a non-empty cache to a ring without unread messages succeeds. -/
theorem C27_flush_to_drained_ring {wait : Bool}
    (v : Valid a (ops ++ [.flush k wait env]))
    (hrun : (Sys.init a).run ops = .ok (s, outs)) (hstep : s.step (.flush k wait env) = .ok (s', o))
    (hk : s.hs k = .live h) (hw : h.flags.has SHR_WRONLY = true)
    (hu : s.ring.unreadMsgs = []) (hc : s.cached k ≠ [])
    (hlk : env.lockOk = true) (hg : env.good) (hbw : env.bwOpenOk = true) :
    o = .wrote (bytesOf (s.cached k)) ∧ s'.ring.unreadMsgs = s.cached k ∧ s'.cached k = [] := by
  obtain ⟨sp, x⟩ := v.at hrun hstep
  obtain ⟨sh, hsk, hh⟩ := x.rel.live hk
  have hb := C27_cache_bounds v.left hrun k
  rw [x.rel.cached hsk] at hc hb ⊢
  rw [hh.flags] at hw
  have ho := x.out
  have hrel' := x.rel'
  rw [step_flush_eq hsk hw] at ho hrel'
  have hu' := hrel'.ring.unreadMsgs
  rw [unread_with_hs] at hu'
  have hc' : s'.cached k = (sp.flush k sh wait env).2.1.pend := hrel'.cached (upd_same _ _ _)
  rw [x.rel.ring.unreadMsgs] at hu
  have hf := flushCase sp k sh wait env
  have hfit : Fits sp.cap sp.maxm sp.unread sh.pend := by
    rw [x.cap, x.maxm, hu]; unfold Fits; simp; exact ⟨hb.1, hb.2.1⟩
  have hpos := bytesOf_pos hb.2.2 hc
  generalize sp.flush k sh wait env = z at *
  cases hf with
  | empty h => exact absurd h hc
  | noWait _ h1 => rcases h1.2.2 with h | h <;> simp_all
  | tried _ y hy sh' hp =>
    dsimp only at *
    cases hy with
    | no rc h h0 =>
      rcases h0 with h0 | h0
      · rw [hlk] at h0; cases h0
      · exact absurd hfit h0.1
    | full h h1 => exact absurd hfit h1
    | wait h h1 => exact absurd hfit h1
    | bad _ _ hb => exact absurd hg hb
    | done _ h1 h2 =>
      dsimp only at *
      refine ⟨ho, ?_, ?_⟩
      · rw [hu', commit_unread _ _ _ _ x.rel.ring.fle, hu]; simp
      · rw [hc', hp, if_pos (by omega)]

/-- **C27.** A flush moves the whole cache to the ring and returns its size, or leaves the cache as it was; in the latter case it
also leaves the ring as it was if the return value is not -1 or wake-up and msync succeed. -/
theorem C27_flush_all_or_nothing {wait : Bool}
    (v : Valid a (ops ++ [.flush k wait env]))
    (hrun : (Sys.init a).run ops = .ok (s, outs)) (hstep : s.step (.flush k wait env) = .ok (s', o))
    (hk : s.hs k = .live h) (hw : h.flags.has SHR_WRONLY = true) :
    (o = .wrote (bytesOf (s.cached k)) ∧ s.cached k ≠ [] ∧ s'.cached k = [] ∧
      ∃ d, s'.ring.unreadMsgs = s.ring.unreadMsgs.drop d ++ s.cached k ∧
        (a.flags.has SHR_DROP = false → a.flags.has SHR_FARM = false → d = 0)) ∨
    (s'.cached k = s.cached k ∧ (o = .blocked ∨ ∃ rc : Int, rc ≤ 0 ∧ o = .wrote rc) ∧
      (o ≠ .wrote (-1) ∨ env.good → s'.ring.unreadMsgs = s.ring.unreadMsgs)) := by
  obtain ⟨sp, x⟩ := v.at hrun hstep
  obtain ⟨sh, hsk, hh⟩ := x.rel.live hk
  have hb := C27_cache_bounds v.left hrun k
  rw [x.rel.cached hsk] at hb ⊢
  rw [hh.flags] at hw
  have ho := x.out
  have hrel' := x.rel'
  rw [step_flush_eq hsk hw] at ho hrel'
  have hu' := hrel'.ring.unreadMsgs
  rw [unread_with_hs] at hu'
  have hc' : s'.cached k = (sp.flush k sh wait env).2.1.pend := hrel'.cached (upd_same _ _ _)
  rw [x.rel.ring.unreadMsgs]
  have hd0 : ∀ new, Fits sp.cap sp.maxm sp.unread new ∨ sp.drop = true → a.flags.has SHR_DROP = false →
      a.flags.has SHR_FARM = false → evictCount sp.cap sp.maxm new sp.unread = 0 := by
    intro new hf h1 h2
    have : sp.drop = false := by rw [x.drop, h1, h2]; rfl
    rw [this] at hf
    exact evictCount_zero_of_fits (hf.resolve_right (by simp))
  have hf := flushCase sp k sh wait env
  generalize sp.flush k sh wait env = z at *
  cases hf with
  | empty h => exact .inr ⟨hc', .inr ⟨0, by decide, ho⟩, fun _ => hu'⟩
  | noWait _ h1 => exact .inr ⟨hc', .inr ⟨-1, by decide, ho⟩, fun _ => hu'⟩
  | tried hne y hy sh' hp =>
    have hpos := bytesOf_pos hb.2.2 hne
    dsimp only at *
    cases hy with
    | no rc h h0 =>
      dsimp only at *
      exact .inr ⟨by rw [hc', hp, if_neg (by omega)], .inr ⟨rc, by omega, ho⟩, fun _ => hu'⟩
    | full h h1 => dsimp only at *; exact .inr ⟨by rw [hc', hp, if_neg (by omega)], .inr ⟨0, by decide, ho⟩, fun _ => hu'⟩
    | wait h h1 => dsimp only at *; exact .inr ⟨by rw [hc', hp], .inl ho, fun _ => hu'⟩
    | bad _ _ hb =>
      dsimp only at *
      refine .inr ⟨by rw [hc', hp, if_neg (by omega)], .inr ⟨-1, by decide, ho⟩, ?_⟩
      rintro (h | h)
      · exact absurd ho h
      · exact absurd h hb
    | done _ h1 h2 =>
      dsimp only at *
      refine .inl ⟨ho, hne, by rw [hc', hp, if_pos (by omega)], _, ?_, hd0 _ h1⟩
      rw [hu', commit_unread _ _ _ _ x.rel.ring.fle]

/-- **C28.** A write on a buffered handle that does not return a positive count leaves none of its messages anywhere: ring and
cache are as before, or the cache as it was before was moved to the ring.  What is missing: a return value of -1 caused by a
failed wake-up or msync (`C28_counterexample`). -/
theorem C28_refused_write_leaves_nothing_partial {iov : List Msg} {envF : Env} {rc : Int}
    (v : Valid a (ops ++ [.writev k iov envF env]))
    (hrun : (Sys.init a).run ops = .ok (s, outs)) (hstep : s.step (.writev k iov envF env) = .ok (s', .wrote rc))
    (hk : s.hs k = .live h) (hw : h.flags.has SHR_WRONLY = true) (hrc : rc ≤ 0)
    (hg : rc ≠ -1 ∨ (envF.good ∧ env.good)) :
    (s'.ring.unreadMsgs = s.ring.unreadMsgs ∧ s'.cached k = s.cached k) ∨
    (∃ d, s'.ring.unreadMsgs = s.ring.unreadMsgs.drop d ++ s.cached k ∧ s'.cached k = [] ∧
      (a.flags.has SHR_DROP = false → a.flags.has SHR_FARM = false → d = 0)) := by
  obtain ⟨sp, x⟩ := v.at hrun hstep
  obtain ⟨sh, hsk, hh⟩ := x.rel.live hk
  have hb := C27_cache_bounds v.left hrun k
  rw [x.rel.cached hsk] at hb ⊢
  rw [hh.flags] at hw
  have ho := x.out
  have hrel' := x.rel'
  rw [step_writev_eq hsk hw] at ho hrel'
  have hu' := hrel'.ring.unreadMsgs
  rw [unread_with_hs] at hu'
  have hc' : s'.cached k = (sp.writev k sh iov envF env).2.1.pend := hrel'.cached (upd_same _ _ _)
  rw [x.rel.ring.unreadMsgs, hu', hc']
  have hd0 : ∀ new, Fits sp.cap sp.maxm sp.unread new ∨ sp.drop = true → a.flags.has SHR_DROP = false →
      a.flags.has SHR_FARM = false → evictCount sp.cap sp.maxm new sp.unread = 0 := by
    intro new hf h1 h2
    have : sp.drop = false := by rw [x.drop, h1, h2]; rfl
    rw [this] at hf
    exact evictCount_zero_of_fits (hf.resolve_right (by simp))
  clear hu' hc' hrel'
  -- a direct write of `iov` that does not succeed changes nothing
  have direct : ∀ sp1 : Spec, Spec.WRes.out (sp1.tryWrite k (sh.flags.has SHR_NONBLOCK) iov env).2 = .wrote rc →
      0 < bytesOf iov → (sp1.tryWrite k (sh.flags.has SHR_NONBLOCK) iov env).1 = sp1 := by
    intro sp1 h1 hpos
    have hc := tryCase sp1 k (sh.flags.has SHR_NONBLOCK) iov env
    generalize sp1.tryWrite k (sh.flags.has SHR_NONBLOCK) iov env = y at *
    cases hc with
    | no rc h h0 => rfl
    | full h h1 => rfl
    | wait h h1 => rfl
    | bad _ _ hb =>
      simp [Spec.WRes.out] at h1
      rcases hg with hg | hg
      · exact absurd h1.symm hg
      · exact absurd hg.2 hb
    | done _ _ _ => simp [Spec.WRes.out] at h1; omega
  unfold Spec.writev at ho ⊢
  dsimp only at ho ⊢
  by_cases hl : Legal sp.cap sp.maxm iov
  rotate_left
  · rw [if_pos hl]; exact .inl ⟨rfl, rfl⟩
  have hpos : 0 < bytesOf iov := bytesOf_pos hl.2.1 hl.1
  rw [if_neg (by simp [hl])] at ho ⊢
  by_cases hbf : sh.flags.has SHR_BUFFERED = false
  · rw [if_pos hbf] at ho ⊢
    exact .inl ⟨by rw [direct sp ho.symm hpos], rfl⟩
  rw [if_neg hbf] at ho ⊢
  by_cases hcf : Spec.cacheFits sh iov
  · rw [if_pos hcf] at ho
    simp [Spec.WRes.out] at ho; omega
  rw [if_neg hcf] at ho ⊢
  by_cases hpe : sh.pend = []
  · rw [if_pos hpe] at ho ⊢
    exact .inl ⟨by rw [direct sp ho.symm hpos], rfl⟩
  rw [if_neg hpe] at ho ⊢
  have hppos := bytesOf_pos hb.2.2 hpe
  have hc := tryCase sp k (sh.flags.has SHR_NONBLOCK) sh.pend envF
  generalize sp.tryWrite k (sh.flags.has SHR_NONBLOCK) sh.pend envF = y at *
  cases hc with
  | no rc2 h h0 => dsimp only at *; rw [if_pos (by omega)]; exact .inl ⟨rfl, rfl⟩
  | full h h1 => dsimp only at *; rw [if_pos (by omega)]; exact .inl ⟨rfl, rfl⟩
  | wait h h1 => exact .inl ⟨rfl, rfl⟩
  | bad _ _ hb =>
    dsimp only at *
    rw [if_pos (by omega)] at ho
    simp [Spec.WRes.out] at ho
    rcases hg with hg | hg
    · exact absurd ho hg
    · exact absurd hg.1 hb
  | done _ h1 h2 =>
    dsimp only at *
    rw [if_neg (by omega)] at ho ⊢
    by_cases hcf2 : Spec.cacheFits { sh with pend := [] } iov
    · rw [if_pos hcf2] at ho
      simp [Spec.WRes.out] at ho; omega
    · rw [if_neg hcf2] at ho ⊢
      dsimp only at ho ⊢
      refine .inr ⟨_, ?_, rfl, hd0 _ h1⟩
      rw [direct _ ho.symm hpos, commit_unread _ _ _ _ x.rel.ring.fle]

/-- **C30.** Closing a handle moves its whole cache to the ring or discards exactly its cache (the latter, if wake-up and msync
succeed, without touching the ring); no other handle changes. It is moved if the lock is obtained and the ring has space or drops;
on a full ring without SHR_DROP a non-blocking handle discards it. -/
theorem C30_close
    (v : Valid a (ops ++ [.close k env]))
    (hrun : (Sys.init a).run ops = .ok (s, outs)) (hstep : s.step (.close k env) = .ok (s', .closed))
    (hk : s.hs k = .live h) :
    (∀ j, j ≠ k → s'.hs j = s.hs j) ∧
    ((∃ d, s'.ring.unreadMsgs = s.ring.unreadMsgs.drop d ++ s.cached k ∧
        (a.flags.has SHR_DROP = false → a.flags.has SHR_FARM = false → d = 0)) ∨
      (s.cached k ≠ [] ∧ s'.ring.unreadMsgs = s.ring.unreadMsgs ∧
        (env.lockOk = true → a.flags.has SHR_DROP = false ∧ a.flags.has SHR_FARM = false ∧
          ¬ Fits a.dataSz a.max_msgs s.ring.unreadMsgs (s.cached k)))) ∧
    (h.flags.has SHR_NONBLOCK = true → a.flags.has SHR_DROP = false → a.flags.has SHR_FARM = false →
      ¬ Fits a.dataSz a.max_msgs s.ring.unreadMsgs (s.cached k) → s'.ring.unreadMsgs = s.ring.unreadMsgs) := by
  obtain ⟨sp, x⟩ := v.at hrun hstep
  obtain ⟨sh, hsk, hh⟩ := x.rel.live hk
  have hb := C27_cache_bounds v.left hrun k
  refine ⟨?_, ?_⟩
  · intro j hj
    unfold Sys.step at hstep
    simp only [hk] at hstep
    split at hstep
    · cases hstep
    · cases hstep
    · cases hstep; exact upd_other _ _ hj
  rw [x.rel.cached hsk] at hb ⊢
  rw [hh.flags]
  have ho := x.out
  have hu' := x.rel'.ring.unreadMsgs
  rw [x.rel.ring.unreadMsgs, ← x.cap, ← x.maxm]
  have hd0 : ∀ new, Fits sp.cap sp.maxm sp.unread new ∨ sp.drop = true → a.flags.has SHR_DROP = false →
      a.flags.has SHR_FARM = false → evictCount sp.cap sp.maxm new sp.unread = 0 := by
    intro new hf h1 h2
    have : sp.drop = false := by rw [x.drop, h1, h2]; rfl
    rw [this] at hf
    exact evictCount_zero_of_fits (hf.resolve_right (by simp))
  have hd1 : sp.drop = false → a.flags.has SHR_DROP = false ∧ a.flags.has SHR_FARM = false := by
    intro h; rw [x.drop] at h; simpa using h
  have hd2 : a.flags.has SHR_DROP = false → a.flags.has SHR_FARM = false → sp.drop = false := by
    intro h1 h2; rw [x.drop, h1, h2]; rfl
  have hst : (sp.step (.close k env)).1.unread = (sp.flush k sh false env).1.unread := by
    unfold Spec.step; simp only [hsk]; split <;> rfl
  have hw : ∃ rc, (sp.flush k sh false env).2.2 = .ret rc := by
    unfold Spec.step at ho; simp only [hsk] at ho
    cases e : (sp.flush k sh false env).2.2 with
    | ret rc => exact ⟨rc, rfl⟩
    | wait => rw [e] at ho; cases ho
  rw [hst] at hu'
  rw [hu']
  clear hu' hst ho
  obtain ⟨rc, hw⟩ := hw
  have hf := flushCase sp k sh false env
  generalize sp.flush k sh false env = z at *
  cases hf with
  | empty h => exact ⟨.inl ⟨0, by rw [h]; simp, fun _ _ => rfl⟩, fun _ _ _ _ => rfl⟩
  | noWait _ h1 => cases h1.2.1
  | tried hne y hy sh' hp =>
    dsimp only at *
    cases hy with
    | no rc h h0 =>
      refine ⟨.inr ⟨hne, rfl, fun hl => ?_⟩, fun _ _ _ _ => rfl⟩
      rcases h0 with h0 | h0
      · rw [hl] at h0; cases h0
      · exact ⟨(hd1 h0.2).1, (hd1 h0.2).2, h0.1⟩
    | full h h1 h2 => exact ⟨.inr ⟨hne, rfl, fun hl => ⟨(hd1 h2).1, (hd1 h2).2, h1⟩⟩, fun _ _ _ _ => rfl⟩
    | wait h h1 => cases hw
    | bad _ h1 hb =>
      refine ⟨.inl ⟨_, commit_unread _ _ _ _ x.rel.ring.fle, hd0 _ h1⟩, fun _ h2 h3 h4 => ?_⟩
      rcases h1 with h1 | h1
      · exact absurd h1 h4
      · rw [hd2 h2 h3] at h1; cases h1
    | done _ h1 _ =>
      refine ⟨.inl ⟨_, commit_unread _ _ _ _ x.rel.ring.fle, hd0 _ h1⟩, fun _ h2 h3 h4 => ?_⟩
      rcases h1 with h1 | h1
      · exact absurd h1 h4
      · rw [hd2 h2 h3] at h1; cases h1


/-- **C30.** A non-blocking handle on a full ring: the cache is discarded and nothing else changes, neither the unread messages, nor
the counters, nor the app data, nor another handle. -/
theorem C30_discard_changes_nothing_else
    (v : Valid a (ops ++ [.close k env]))
    (hrun : (Sys.init a).run ops = .ok (s, outs)) (hstep : s.step (.close k env) = .ok (s', .closed))
    (hk : s.hs k = .live h) (hd : a.flags.has SHR_DROP = false) (hfm : a.flags.has SHR_FARM = false)
    (hfull : ¬ Fits a.dataSz a.max_msgs s.ring.unreadMsgs (s.cached k)) :
    s'.ring.unreadMsgs = s.ring.unreadMsgs ∧ s'.ring.stat = s.ring.stat ∧ s'.ring.app = s.ring.app ∧
      ∀ j, j ≠ k → s'.hs j = s.hs j := by
  obtain ⟨hj, _, _⟩ := C30_close v hrun hstep hk
  obtain ⟨sp, x⟩ := v.at hrun hstep
  obtain ⟨sh, hsk, hh⟩ := x.rel.live hk
  rw [x.rel.cached hsk, x.rel.ring.unreadMsgs, ← x.cap, ← x.maxm] at hfull
  have hdr : sp.drop = false := by rw [x.drop, hd, hfm]; rfl
  have hst : (sp.step (.close k env)).1.unread = (sp.flush k sh false env).1.unread ∧
      (sp.step (.close k env)).1.st = (sp.flush k sh false env).1.st ∧
      (sp.step (.close k env)).1.app = (sp.flush k sh false env).1.app := by
    unfold Spec.step; simp only [hsk]; split <;> exact ⟨rfl, rfl, rfl⟩
  have hfl : (sp.flush k sh false env).1 = sp := by
    have hf := flushCase sp k sh false env
    generalize sp.flush k sh false env = z at *
    cases hf with
    | empty h => rfl
    | noWait _ h1 => rfl
    | tried hne y hy sh' hp =>
      cases hy with
      | bad _ h1 _ =>
        rcases h1 with h1 | h1
        · exact absurd h1 hfull
        · rw [hdr] at h1; cases h1
      | done _ h1 _ =>
        rcases h1 with h1 | h1
        · exact absurd h1 hfull
        · rw [hdr] at h1; cases h1
      | _ => rfl
  rw [hfl] at hst
  refine ⟨?_, ?_, ?_, hj⟩
  · rw [x.rel'.ring.unreadMsgs, x.rel.ring.unreadMsgs, hst.1]
  · rw [x.rel'.ring.stat, x.rel.ring.stat, hst.2.1]
  · rw [x.rel'.ring.app, x.rel.ring.app, hst.2.2]

/-- **C44 (buffered writer).** A write on a buffered handle that returns -3 has put none of its messages into ring or cache: both are as
before, or the cache as it was before was moved to the ring. -/
theorem C44_interrupted_buffered_write {iov : List Msg} {envF : Env}
    (v : Valid a (ops ++ [.writev k iov envF env]))
    (hrun : (Sys.init a).run ops = .ok (s, outs)) (hstep : s.step (.writev k iov envF env) = .ok (s', .wrote (-3)))
    (hk : s.hs k = .live h) (hw : h.flags.has SHR_WRONLY = true) :
    (s'.ring.unreadMsgs = s.ring.unreadMsgs ∧ s'.cached k = s.cached k) ∨
    (∃ d, s'.ring.unreadMsgs = s.ring.unreadMsgs.drop d ++ s.cached k ∧ s'.cached k = [] ∧
      (a.flags.has SHR_DROP = false → a.flags.has SHR_FARM = false → d = 0)) :=
  C28_refused_write_leaves_nothing_partial v hrun hstep hk hw (by decide) (.inl (by decide))

/-- **C44 (flush).** A flush that returns -3 has written nothing and kept the cache. -/
theorem C44_interrupted_flush {wait : Bool}
    (v : Valid a (ops ++ [.flush k wait env]))
    (hrun : (Sys.init a).run ops = .ok (s, outs)) (hstep : s.step (.flush k wait env) = .ok (s', .wrote (-3)))
    (hk : s.hs k = .live h) (hw : h.flags.has SHR_WRONLY = true) :
    s'.ring.unreadMsgs = s.ring.unreadMsgs ∧ s'.cached k = s.cached k := by
  rcases C27_flush_all_or_nothing v hrun hstep hk hw with ⟨h1, _⟩ | ⟨h1, _, h3⟩
  · injection h1 with h1; omega
  · exact ⟨h3 (.inl (by simp)), h1⟩

theorem tryWrite_app (sp : Spec) (k : Nat) (nb : Bool) (new : List Msg) (env : Env) :
    (sp.tryWrite k nb new env).1.app = sp.app := by
  have hc := tryCase sp k nb new env
  generalize sp.tryWrite k nb new env = y at *
  cases hc <;> rfl

theorem flush_app (sp : Spec) (k : Nat) (sh : SHandle) (wait : Bool) (env : Env) :
    (sp.flush k sh wait env).1.app = sp.app := by
  unfold Spec.flush
  split
  · rfl
  · dsimp only; split
    · rfl
    · exact tryWrite_app _ _ _ _ _

theorem writev_app (sp : Spec) (k : Nat) (sh : SHandle) (iov : List Msg) (envF env : Env) :
    (sp.writev k sh iov envF env).1.app = sp.app := by
  unfold Spec.writev
  dsimp only
  split
  · rfl
  split
  · exact tryWrite_app _ _ _ _ _
  split
  · rfl
  split
  · exact tryWrite_app _ _ _ _ _
  split
  · exact tryWrite_app _ _ _ _ _
  · split
    · exact tryWrite_app _ _ _ _ _
    split
    · exact tryWrite_app _ _ _ _ _
    · dsimp only; rw [tryWrite_app, tryWrite_app]

theorem step_app (sp : Spec) (op : Op) (h : ∀ k get set sz env, op ≠ .appdata k get set sz env) :
    (sp.step op).1.app = sp.app := by
  cases op with
  | appdata k get set sz env => exact absurd rfl (h _ _ _ _ _)
  | «open» k flags env =>
    unfold Spec.step; dsimp only; split
    · split
      · rfl
      · split <;> rfl
    · rfl
  | writev k iov envF env =>
    unfold Spec.step; dsimp only; split
    · split
      · rfl
      · exact writev_app _ _ _ _ _ _
    · rfl
  | readv k buf niov env =>
    unfold Spec.step; dsimp only; split
    · split
      · rfl
      · show (sp.readv _ buf niov env).1.app = sp.app
        unfold Spec.readv; dsimp only
        split
        · rfl
        split
        · split
          · rfl
          · split <;> rfl
        · rfl
    · rfl
  | flush k wait env =>
    unfold Spec.step; dsimp only; split
    · split
      · rfl
      · exact flush_app _ _ _ _ _
    · rfl
  | close k env =>
    unfold Spec.step; dsimp only; split
    · split
      · exact flush_app _ _ _ _ _
      · exact flush_app _ _ _ _ _
    · rfl
  | stat k reset env =>
    unfold Spec.step; dsimp only; split
    · split
      · rfl
      · cases reset <;> rfl
    · rfl
  | farmStat k reset =>
    unfold Spec.step; dsimp only; split
    · split <;> rfl
    · rfl

/-- **C25.** No call except `shr_appdata` changes the app data. -/
theorem C25_unaffected_by_traffic {op : Op} (v : Valid a (ops ++ [op]))
    (hrun : (Sys.init a).run ops = .ok (s, outs)) (hstep : s.step op = .ok (s', o))
    (hna : ∀ k get set sz env, op ≠ .appdata k get set sz env) : s'.ring.app = s.ring.app := by
  obtain ⟨sp, x⟩ := v.at hrun hstep
  rw [x.rel.ring.app, x.rel'.ring.app, step_app _ _ hna]

/-- **C25.** What `shr_appdata` does, for argument shapes that are within the caller's and the ring's bounds (`Valid`):
a get returns the stored bytes; a set (of the exact size) stores; get-and-set returns the old bytes and stores the new ones; an error
(-1) changes nothing if msync succeeds. -/
theorem C25_call_partial {get : GetArg} {set : Option (List Byte)} {sz : Nat} {r : AppOut}
    (v : Valid a (ops ++ [.appdata k get set sz env]))
    (hrun : (Sys.init a).run ops = .ok (s, outs)) (hstep : s.step (.appdata k get set sz env) = .ok (s', .app r)) :
    -- a get, or the get half of a get-and-set
    (∀ b, r.got = some b → b = s.ring.app ∧ r.sz = s.ring.app.length) ∧
    (r.rc = 0 → get ≠ .null → (set = none ∨ get ≠ .alloc) → r.got = some s.ring.app) ∧
    -- a set
    (∀ b, r.rc = 0 → set = some b → get ≠ .alloc → s'.ring.app = b.take sz ∧ sz = s.ring.app.length) ∧
    (∀ b, set = some b → sz ≠ s.ring.app.length → get ≠ .alloc → r.rc = -1) ∧
    -- otherwise
    ((set = none ∨ r.rc ≠ 0 ∧ env.syncOk = true) → s'.ring.app = s.ring.app) ∧
    (r.rc = 0 ∨ r.rc = -1) := by
  obtain ⟨sp, x⟩ := v.at hrun hstep
  have ho := x.out
  rw [x.rel.ring.app, x.rel'.ring.app]
  unfold Spec.step at ho ⊢
  dsimp only at ho ⊢
  split at ho
  rotate_left
  · cases ho
  simp only [Out.app.injEq] at ho
  subst ho
  unfold Spec.appdata
  dsimp only
  by_cases h1 : env.lockOk = false ∨ sp.app.length = 0
  · rw [if_pos h1]; simp
  rw [if_neg h1]
  by_cases hsy : sp.gflags.has SHR_SYNC = true ∧ env.syncOk = false
  all_goals
    cases get <;> cases set <;> dsimp only
    all_goals (try simp only [hsy, if_false])
    all_goals (first | (split <;> simp_all) | simp_all)

theorem appValue_snoc : ∀ (ops : List Op) (outs : List Out) (op : Op) (o : Out) (v : List Byte), outs.length = ops.length →
    appValue v (ops ++ [op]) (outs ++ [o]) = appAfter (appValue v ops outs) op o := by
  intro ops
  induction ops with
  | nil => intro outs op o v h; rw [List.length_eq_zero_iff.mp h]; simp [appValue]
  | cons x xs ih =>
    intro outs op o v h
    cases outs with
    | nil => simp at h
    | cons y ys => simp at h; simp [appValue, ih ys op o _ h]

/-- **C25.** The app data is a register: after any history it is what the last successful set stored, or else what `shr_init` was given
(if every msync succeeds). -/
theorem C25_register (v : Valid a ops) (hg : ∀ op ∈ ops, op.good) (hrun : (Sys.init a).run ops = .ok (s, outs)) :
    s.ring.app = appValue (initRing a).app ops outs := by
  refine (Valid.induct (a := a) (P := fun ops outs s _ => s.ring.app = appValue (initRing a).app ops outs) (Q := Op.good)
    rfl ?_ ops v hg s outs hrun).1
  intro ops outs s s' op o v hrun hstep ha hl hgood hP
  rw [appValue_snoc _ _ _ _ _ hl, ← hP]
  by_cases hna : ∀ k get set sz env, op ≠ .appdata k get set sz env
  · rw [C25_unaffected_by_traffic v hrun hstep hna]
    unfold appAfter
    split
    · exact absurd rfl (hna _ _ _ _ _)
    · rfl
  · simp only [Classical.not_forall, Decidable.not_not] at hna
    obtain ⟨k, get, set, sz, env, rfl⟩ := hna
    have hcase : o = .misuse ∨ ∃ r, o = .app r := by
      rw [ha.out]; unfold Spec.step; dsimp only; split
      · exact .inr ⟨_, rfl⟩
      · exact .inl rfl
    rcases hcase with rfl | ⟨r, rfl⟩
    · have : s' = s := by
        unfold Sys.step at hstep
        dsimp only at hstep
        split at hstep
        · split at hstep
          · cases hstep
          · cases hstep
        · cases hstep; rfl
      rw [this]; cases set <;> rfl
    · obtain ⟨_, _, h3, _, h5, h6⟩ := C25_call_partial v hrun hstep
      cases set with
      | none => exact h5 (.inl rfl)
      | some b =>
        unfold appAfter
        dsimp only
        split
        · rename_i hc; exact (h3 b hc.1 rfl hc.2).1
        · rename_i hc
          by_cases hrc : r.rc = 0
          · have hga : get = .alloc := by
              by_cases hq : get = .alloc
              · exact hq
              · exact absurd ⟨hrc, hq⟩ hc
            subst hga
            -- get-and-set with `*get == NULL` stores nothing
            have ho := ha.out
            rw [ha.rel.ring.app, ha.rel'.ring.app]
            unfold Spec.step
            dsimp only
            split
            · unfold Spec.appdata; dsimp only; split <;> rfl
            · rfl
          · exact h5 (.inr ⟨hrc, hgood.2⟩)

/-- **C25.** What is missing: a get into a buffer larger than the app data (which the check `*sz >= r->app_len` admits) reads past the
end of the app-data region, shr.c:1061-1066. -/
theorem C25_counterexample_overread (b1 b2 b3 : Byte) (r : Ring) (hr : r.app = [b1, b2, b3]) (hl : r.app_len = 3) :
    exec (shr_appdata (.into 4) none 4 {}) r = .error .ub := by
  unfold exec shr_appdata
  simp [hl, hr, appRead, memRead, M.lift, M.bind_apply]

/-- **C25.** What is missing: get-and-set with `*get == NULL` returns 0 and does nothing. -/
theorem C25_counterexample_ignored (b : List Byte) (r : Ring) (hl : r.app_len = b.length) (hb : b ≠ []) :
    exec (shr_appdata .alloc (some b) b.length {}) r = .ok (⟨0, none, b.length⟩, r) := by
  have : b.length ≠ 0 := by simpa using hb
  unfold exec shr_appdata
  simp [hl, this]

/-! ## C22 -/

/-- Opening or closing. -/
def Op.isOpenClose : Op → Prop
  | .open _ _ _ => True
  | .close _ _ => True
  | _ => False

/-- **C22.** Any sequence of opens and closes, of handles without cached messages, leaves every byte of the ring (messages, positions,
counters, app data) as it was; all handles may be closed in between.  (Closing a handle with cached messages: C30, which says exactly what
happens, and `C22_counterexample_cached`.) -/
theorem C22_persists {pre : List Op} {outs0 : List Out} {s0 : Sys}
    (v : Valid a (pre ++ ops)) (hoc : ∀ op ∈ ops, op.isOpenClose)
    (hrun : (Sys.init a).run pre = .ok (s0, outs0)) (hcont : s0.run ops = .ok (s, outs))
    (hnc : ∀ k env, .close k env ∈ ops → s0.cached k = []) : s.ring = s0.ring := by
  refine (Valid.induct_from (P := fun _ _ s _ => s.ring = s0.ring ∧ ∀ k, s0.cached k = [] → s.cached k = [])
    (Q := fun op => op.isOpenClose ∧ ∀ k env, op = .close k env → s0.cached k = [])
    hrun ⟨rfl, fun _ h => h⟩ ?_ ops v (fun op ho => ⟨hoc op ho, fun k env e => hnc k env (e ▸ ho)⟩) s outs hcont).1.1
  intro ops outs s s' op o v _ hstep ha _ ⟨hq, hqc⟩ ⟨h1, h2⟩
  cases op <;> simp only [Op.isOpenClose] at hq
  · rename_i k flags env
    unfold Sys.step at hstep
    dsimp only at hstep
    split at hstep
    · split at hstep
      · cases hstep; exact ⟨h1, h2⟩
      · split at hstep
        · cases hstep; exact ⟨h1, h2⟩
        · rename_i h heq
          cases hstep
          refine ⟨h1, fun j hj0 => ?_⟩
          by_cases hj : j = k
          · subst hj
            unfold Sys.cached
            simp only [upd_same]
            unfold openLocked at heq
            split at heq
            · cases heq
            split at heq
            · cases heq
            split at heq
            · cases heq
            split at heq
            · cases heq
            split at heq
            · cases heq
            rename_i c hc _
            cases heq
            dsimp only
            unfold init_cache at hc
            split at hc
            · cases hc; rfl
            split at hc
            · cases hc; rfl
            split at hc
            · cases hc
            · cases hc; rfl
          · have := h2 j hj0
            unfold Sys.cached at this ⊢
            simp only [upd_other _ _ hj]; exact this
    · cases hstep; exact ⟨h1, h2⟩
  · rename_i k env
    unfold Sys.step at hstep
    dsimp only at hstep
    split at hstep
    · rename_i h hk
      obtain ⟨sh, e1, r1⟩ := ha.rel.live hk
      have hz : h.c.n = 0 := by
        rw [r1.cache.n_zero, ← ha.rel.cached e1]; exact h2 k (hqc k env rfl)
      have he : exec (shr_close h env) s.ring = .ok (.ret 0 false, s.ring) := by
        unfold exec shr_close
        simp [hz]
      rw [he] at hstep
      cases hstep
      refine ⟨h1, fun j hj0 => ?_⟩
      by_cases hj : j = k
      · subst hj; unfold Sys.cached; simp only [upd_same]
      · have := h2 j hj0
        unfold Sys.cached at this ⊢
        simp only [upd_other _ _ hj]; exact this
    · cases hstep; exact ⟨h1, h2⟩

end

/-! ## C26: what goes wrong when a wake-up fails during a flush -/

/-- A non-blocking buffered writer whose flush fails after the commit (`bw_wake` fails) keeps the cache; the next flush puts
the same messages into the ring again. -/
def dupHist : List Op := [opn 0 (SHR_WRONLY ||| SHR_BUFFERED ||| SHR_NONBLOCK), opn 1 (SHR_RDONLY ||| SHR_NONBLOCK),
  wr 0 [[1, 2]], .flush 0 false { wakeOk := false }, .flush 0 false {}, rd 1 10 3]

/-- **C26.** Without the hypothesis that wake-ups succeed the claim is false: one message is written once and delivered twice. -/
theorem C26_counterexample : ∃ (a : InitArgs) (ops : List Op), Valid a ops ∧
    ∃ s outs, (Sys.init a).run ops = .ok (s, outs) ∧
      accepted ops outs = [[1, 2]] ∧ delivered outs = [[1, 2], [1, 2]] ∧ s.cached 0 = [] := by
  have v : Valid demoA dupHist := valid_of (by decide +kernel)
  exact ⟨demoA, dupHist, v, _, _, v.runs, by decide +kernel, by decide +kernel, by decide +kernel⟩

/-- A ring whose writers' caches are smaller (1024 bytes), and two handles. -/
def failA : InitArgs := { dataSz := 10240, maxMsgs := 3, flags := SHR_MAXMSGS_2 }
def failMsg : Msg := List.replicate 1025 7
/-- A write of more than fits into the cache of a buffered handle goes to the ring directly; its wake-up fails. -/
def failHist : List Op := [opn 0 (SHR_WRONLY ||| SHR_BUFFERED ||| SHR_NONBLOCK), opn 1 (SHR_RDONLY ||| SHR_NONBLOCK),
  .writev 0 [failMsg] {} { wakeOk := false }, rd 1 1025 1]

/-- **C28.** A write on a non-blocking buffered handle returns -1 and its message is delivered all the same. -/
theorem C28_counterexample : ∃ (a : InitArgs) (m : Msg),
    Valid a [opn 0 (SHR_WRONLY ||| SHR_BUFFERED ||| SHR_NONBLOCK), opn 1 (SHR_RDONLY ||| SHR_NONBLOCK),
      .writev 0 [m] {} { wakeOk := false }, rd 1 1025 1] ∧
    ∃ s outs, (Sys.init a).run [opn 0 (SHR_WRONLY ||| SHR_BUFFERED ||| SHR_NONBLOCK), opn 1 (SHR_RDONLY ||| SHR_NONBLOCK),
        .writev 0 [m] {} { wakeOk := false }, rd 1 1025 1] = .ok (s, outs) ∧
      outs[2]? = some (.wrote (-1)) ∧ delivered outs = [m] := by
  have v : Valid failA failHist := valid_of (by decide +kernel)
  obtain ⟨_, _, _, e⟩ := v.state v.runs
  exact ⟨failA, failMsg, v, _, _, v.runs, by rw [e]; decide +kernel, by rw [e]; decide +kernel⟩

/-- **C22.** Closing a handle with cached messages changes the unread messages. -/
theorem C22_counterexample_cached : ∃ (a : InitArgs) (ops : List Op), Valid a (ops ++ [.close 0 {}]) ∧
    (final a ops).ring.unreadMsgs = [] ∧ (final a (ops ++ [.close 0 {}])).ring.unreadMsgs = [[1, 2]] :=
  ⟨demoA, [opn 0 (SHR_WRONLY ||| SHR_BUFFERED), wr 0 [[1, 2]]], valid_of (by decide +kernel), by decide +kernel, by decide +kernel⟩

/-! ## The hypotheses can be met -/

/-- A buffered writer with one cached message, on a drained ring. -/
def cacheHist : List Op := [opn 0 (SHR_WRONLY ||| SHR_BUFFERED ||| SHR_NONBLOCK), opn 1 SHR_WRONLY,
  opn 2 (SHR_RDONLY ||| SHR_NONBLOCK), wr 0 [[1, 2, 3], [4]]]

/-- A blocking buffered writer with two bytes cached, on a ring that is full. -/
def jamHist : List Op := [opn 0 (SHR_WRONLY ||| SHR_BUFFERED), opn 1 SHR_WRONLY, wr 1 [[1, 2, 3, 4, 5, 6, 7, 8, 9]], wr 0 [[4, 4]]]

/-- C44: the flush waits and is interrupted. -/
example : lastOut demoA (jamHist ++ [.flush 0 true { waitRc := some .pollfd }]) = .wrote (-3) ∧
    (final demoA (jamHist ++ [.flush 0 true { waitRc := some .pollfd }])).cached 0 = [[4, 4]] := by
  have v : Valid demoA (jamHist ++ [.flush 0 true { waitRc := some .pollfd }]) := valid_of (by decide +kernel)
  have h : lastOut demoA (jamHist ++ [.flush 0 true { waitRc := some .pollfd }]) = .wrote (-3) := by decide +kernel
  have hk := live_handle (s := final demoA jamHist) (k := 0) (by decide +kernel)
  have hs := v.steps
  rw [h] at hs
  exact ⟨h, (C44_interrupted_flush v v.left.runs hs hk (by decide +kernel)).2.trans (by decide +kernel)⟩

/-- C44: a write that must flush first waits and is interrupted. -/
example : (final demoA (jamHist ++ [.writev 0 [[1, 1, 1, 1, 1, 1, 1, 1, 1]] { waitRc := some .pollfd } {}])).ring.unreadMsgs =
    [[1, 2, 3, 4, 5, 6, 7, 8, 9]] := by
  have v : Valid demoA (jamHist ++ [.writev 0 [[1, 1, 1, 1, 1, 1, 1, 1, 1]] { waitRc := some .pollfd } {}]) := valid_of (by decide +kernel)
  have h : lastOut demoA (jamHist ++ [.writev 0 [[1, 1, 1, 1, 1, 1, 1, 1, 1]] { waitRc := some .pollfd } {}]) = .wrote (-3) := by
    decide +kernel
  have hk := live_handle (s := final demoA jamHist) (k := 0) (by decide +kernel)
  have hs := v.steps
  rw [h] at hs
  have hu : (final demoA jamHist).ring.unreadMsgs = [[1, 2, 3, 4, 5, 6, 7, 8, 9]] := by decide +kernel
  rcases C44_interrupted_buffered_write v v.left.runs hs hk (by decide +kernel) with h | ⟨d, _, h, _⟩
  · rw [h.1, hu]
  · exact absurd h (by decide +kernel)

/-- C30: a handle whose flush at close gives up, on a full ring. -/
example : (final demoA (jamHist ++ [.close 0 { waitRc := some .pollfd }])).ring.stat = (final demoA jamHist).ring.stat := by
  have v : Valid demoA (jamHist ++ [.close 0 { waitRc := some .pollfd }]) := valid_of (by decide +kernel)
  have h : lastOut demoA (jamHist ++ [.close 0 { waitRc := some .pollfd }]) = .closed := by decide +kernel
  have hk := live_handle (s := final demoA jamHist) (k := 0) (by decide +kernel)
  have hs := v.steps
  rw [h] at hs
  exact (C30_discard_changes_nothing_else v v.left.runs hs hk (by decide) (by decide) (by decide +kernel)).2.1

/-- C29, C27: a blocking flush on a non-blocking handle. -/
example : lastOut demoA (cacheHist ++ [.flush 0 true {}]) = .wrote 4 ∧
    ((final demoA (cacheHist ++ [.flush 0 true {}])).handle 0).flags = ((final demoA cacheHist).handle 0).flags ∧
    (final demoA (cacheHist ++ [.flush 0 true {}])).ring.unreadMsgs = [[1, 2, 3], [4]] := by
  have v : Valid demoA (cacheHist ++ [.flush 0 true {}]) := valid_of (by decide +kernel)
  have hk := live_handle (s := final demoA cacheHist) (k := 0) (by decide +kernel)
  have hk' := live_handle (s := final demoA (cacheHist ++ [.flush 0 true {}])) (k := 0) (by decide +kernel)
  have hc : (final demoA cacheHist).cached 0 = [[1, 2, 3], [4]] := by decide +kernel
  have h1 := C29_mode_unchanged v v.left.runs v.steps hk hk'
  have h2 := C27_flush_to_drained_ring v v.left.runs v.steps hk (by decide +kernel) (by decide +kernel)
    (by rw [hc]; simp) rfl ⟨rfl, rfl⟩ rfl
  rw [hc] at h2
  exact ⟨h2.1, h1, h2.2.1⟩

/-- C28, C27, C30: the ring is full (10 bytes unread); the buffered write that needs a flush is refused and the cache stays. -/
def fullHist : List Op := cacheHist ++ [wr 1 [[9, 9, 9, 9, 9, 9, 9, 9, 9, 9]]]

example : lastOut demoA (fullHist ++ [wr 0 [[5, 5, 5, 5, 5, 5, 5]]]) = .wrote 0 ∧
    (final demoA fullHist).cached 0 = [[1, 2, 3], [4]] := by decide +kernel

example : Valid demoA (fullHist ++ [wr 0 [[5, 5, 5, 5, 5, 5, 5]]]) ∧ Valid demoA (fullHist ++ [.flush 0 false {}]) ∧
    Valid demoA (fullHist ++ [.close 0 {}]) :=
  ⟨valid_of (by decide +kernel), valid_of (by decide +kernel), valid_of (by decide +kernel)⟩

/-- ... and closing discards exactly the cache. -/
example : (final demoA (fullHist ++ [.close 0 {}])).ring.unreadMsgs = [[9, 9, 9, 9, 9, 9, 9, 9, 9, 9]] := by
  have v : Valid demoA (fullHist ++ [.close 0 {}]) := valid_of (by decide +kernel)
  have hs := v.steps
  have ho : lastOut demoA (fullHist ++ [.close 0 {}]) = .closed := by decide +kernel
  rw [ho] at hs
  have h := (C30_close v v.left.runs hs (live_handle (by decide +kernel))).2.2 (by decide +kernel) (by decide) (by decide)
    (by decide +kernel)
  exact h.trans (by decide +kernel)

/-- C25: app data of three bytes; a get-and-set, a set, and a set of the wrong size, between other traffic. -/
def demoApp : InitArgs := { dataSz := 10, maxMsgs := 3, flags := SHR_MAXMSGS_2 ||| SHR_APPDATA_1, app := [7, 8, 9] }
def appHist : List Op := [opn 0 SHR_WRONLY, .appdata 0 (.into 3) (some [1, 1, 1]) 3 {}, wr 0 [[5, 5]],
  .appdata 0 .null (some [2, 2, 2]) 3 {}, .appdata 0 .null (some [3, 3, 3, 3]) 4 {}]

example : (final demoApp appHist).ring.app = [2, 2, 2] ∧
    (outsOf demoApp appHist)[1]? = some (.app ⟨0, some [7, 8, 9], 3⟩) := by
  have v : Valid demoApp appHist := valid_of (by decide +kernel)
  have hg : ∀ op ∈ appHist, op.good := by
    intro op ho
    simp [appHist, opn, wr] at ho
    rcases ho with rfl | rfl | rfl | rfl | rfl <;> simp [Op.good, Env.good]
  exact ⟨(C25_register v hg v.runs).trans (by decide +kernel), by decide +kernel⟩

example : Valid demoApp (appHist ++ [.appdata 0 .alloc none 0 {}]) ∧
    lastOut demoApp (appHist ++ [.appdata 0 .alloc none 0 {}]) = .app ⟨0, some [2, 2, 2], 3⟩ :=
  ⟨valid_of (by decide +kernel), by decide +kernel⟩

/-- C22: everything is closed and a new handle opened. -/
example : (final demoA (demoOps ++ [.close 0 {}, .close 1 {}, opn 2 SHR_RDONLY])).ring = (final demoA demoOps).ring := by
  have v : Valid demoA (demoOps ++ [.close 0 {}, .close 1 {}, opn 2 SHR_RDONLY]) := valid_of (by decide +kernel)
  refine C22_persists v ?_ v.left.runs v.cont ?_
  · intro op ho; simp [opn] at ho; rcases ho with rfl | rfl | rfl <;> trivial
  · intro k _ _
    have hb := (hist_nocache v.left demoOps_unbuffered v.left.runs).1 k
    obtain ⟨sp, x, hsp, _⟩ := v.left.state v.left.runs
    cases e : (final demoA demoOps).hs k with
    | never => unfold Sys.cached; rw [e]
    | gone b => unfold Sys.cached; rw [e]
    | live h =>
      obtain ⟨sh, e1, r1⟩ := x.rel.live e
      rw [x.rel.cached e1]
      unfold specAfter at hb
      rw [← hsp, e1] at hb
      exact hb

end Shr
