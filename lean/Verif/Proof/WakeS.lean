import Verif.Proof.WakeB
import Verif.Proof.ReadFrame
import Verif.Proof.Flow
import Verif.Proof.FarmInv
/-! # Ring and block/wake together, part 2: which signals a call sends -/
namespace Shr

/-- `bw_wake` was called iff messages were put into the ring. -/
def WakeOk (sp sp' : Spec) (o : WrOut) : Prop := ∀ rc w, o = .ret rc w → (w = true ↔ sp'.tlog ≠ sp.tlog)

theorem WakeOk.none (sp : Spec) (rc : Int) : WakeOk sp sp (.ret rc false) := by
  rintro _ _ ⟨⟩; simp

theorem flushCache_wake {r : Ring} {sp : Spec} (hr : RingRel r sp) {h : Handle} {sh : SHandle}
    (hn : h.n = sp.cap) (hmm : h.mm = sp.maxm) (hc : CRel h.c sh.pend sh.csz sh.cvt)
    (hw : h.flags.getLsbD 14 = true) (hp : Legal sp.cap sp.maxm sh.pend) (hcs : sh.csz ≤ sp.cap)
    (who : Nat) (env : Env)
    (hlog : sp.farm = true →
      (sp.tryWrite who (h.flags.has SHR_NONBLOCK) sh.pend env).1.log.length < W) :
    Ok (flushCache h env) r (fun _ => True) (fun o _ =>
      WakeOk sp (sp.tryWrite who (h.flags.has SHR_NONBLOCK) sh.pend env).1 o) := by
  unfold flushCache
  refine Ok.lift_bind hc.read ?_
  unfold writevDirect
  have hw' : (h.flags.clear SHR_BUFFERED).has SHR_WRONLY = true := by
    rw [has_WRONLY, clear_BUFFERED _ _ (by decide), hw]; rfl
  have hnb' : (h.flags.clear SHR_BUFFERED).has SHR_NONBLOCK = h.flags.has SHR_NONBLOCK := by
    rw [has_NONBLOCK, has_NONBLOCK, clear_BUFFERED _ _ (by decide)]; simp
  apply Ok.assert_bind hw'
  have hbd := pend_bd hc (by have := hr.cap_le; omega)
  rw [hn, hmm, lenCheck_spec hr.cap_le (fun b hb => ⟨hp.2.1 b hb, hbd b hb⟩), if_pos hp]
  dsimp only
  rw [← hnb'] at hlog ⊢
  refine (writevAttempt_spec hr hp who (h.flags.clear SHR_BUFFERED) env hlog).mono (fun _ _ => trivial) ?_
  rintro o r' ⟨_, _, _, h4⟩
  exact h4

theorem shr_flush_wake {r : Ring} {sp : Spec} (hr : RingRel r sp) {h : Handle} {sh : SHandle}
    (hh : HRel sp h sh) (hw : sh.flags.has SHR_WRONLY = true) (k : Nat) (wait : Bool) (env : Env)
    (hlog : sp.farm = true → (sp.flush k sh wait env).1.log.length < W) :
    Ok (shr_flush h wait env) r (fun _ => True) (fun x _ => WakeOk sp (sp.flush k sh wait env).1 x.2) := by
  obtain ⟨fl, cur, c, n, mm, r2w⟩ := h
  have hfl : fl = sh.flags := hh.flags
  subst hfl
  have hr2w : r2w = sh.canWait := hh.r2w
  subst hr2w
  unfold shr_flush
  apply Ok.assert_bind hw
  by_cases hp : sh.pend = []
  · rw [if_pos (hh.cache.n_zero.mpr hp)]
    have e : sp.flush k sh wait env = (sp, sh, .ret 0) := by simp only [Spec.flush, if_pos hp]
    rw [e]
    exact Ok.pure (.none _ _)
  rw [if_neg (fun x => hp (hh.cache.n_zero.mp x))]
  have hfb := hh.buffered hp
  have hpl := hh.pend_legal hp
  cases ht : (sh.flags.has SHR_NONBLOCK && wait)
  · have hnb : (sh.flags.has SHR_NONBLOCK && !wait) = sh.flags.has SHR_NONBLOCK := by
      cases h1 : sh.flags.has SHR_NONBLOCK <;> cases h2 : wait <;> simp [h1, h2] at ht ⊢
    have e : (sp.flush k sh wait env).1 = (sp.tryWrite k (sh.flags.has SHR_NONBLOCK) sh.pend env).1 := by
      simp only [Spec.flush, if_neg hp, ht, hnb, Bool.false_eq_true, false_and, if_false]
    rw [e] at hlog ⊢
    simp only [Bool.false_eq_true, false_and, if_false]
    apply Ok.bind
    refine (flushCache_wake (who := k) (env := env) hr hh.n hh.mm hh.cache hfb.2 hpl hh.csz hlog).mono (fun _ _ => trivial) ?_
    intro o r1 ho
    exact Ok.pure ho
  · have ht' := ht
    simp only [Bool.and_eq_true] at ht'
    obtain ⟨hnbf, rfl⟩ := ht'
    simp only [if_true, true_and]
    by_cases hbad : sh.canWait = false ∧ (env.lockOk = false ∨ env.bwOpenOk = false)
    · have e : sp.flush k sh true env = (sp, sh, .ret (-1)) := by
        simp only [Spec.flush, if_neg hp, ht, true_and, if_pos hbad]
      rw [e, if_pos hbad]
      exact Ok.pure (.none _ _)
    · have e : (sp.flush k sh true env).1 = (sp.tryWrite k false sh.pend env).1 := by
        simp only [Spec.flush, if_neg hp, ht, true_and, if_neg hbad, Bool.not_true, Bool.and_false]
      rw [e] at hlog ⊢
      rw [if_neg hbad]
      have hw14 : (sh.flags.clear SHR_NONBLOCK).getLsbD 14 = true := by
        rw [clear_NONBLOCK _ _ (by decide), hfb.2]; rfl
      have hnbc : (sh.flags.clear SHR_NONBLOCK).has SHR_NONBLOCK = false := by
        rw [has_NONBLOCK, clear_NONBLOCK _ _ (by decide)]; simp
      apply Ok.bind
      have hfs := flushCache_wake (h := ⟨sh.flags.clear SHR_NONBLOCK, cur, c, n, mm, true⟩) (who := k) (env := env) hr hh.n hh.mm hh.cache hw14 hpl hh.csz (by rw [hnbc]; exact hlog)
      rw [hnbc] at hfs
      refine hfs.mono (fun _ _ => trivial) ?_
      intro o r1 ho
      exact Ok.pure ho

theorem shr_close_wake {r : Ring} {sp : Spec} (hr : RingRel r sp) {h : Handle} {sh : SHandle}
    (hh : HRel sp h sh) (k : Nat) (env : Env)
    (hlog : sp.farm = true → (sp.flush k sh false env).1.log.length < W) :
    Ok (shr_close h env) r (fun _ => True) (fun x _ => WakeOk sp (sp.flush k sh false env).1 x) := by
  unfold shr_close
  by_cases hp : sh.pend = []
  · rw [if_neg (by simp [hh.cache.n_zero.mpr hp])]
    have e : sp.flush k sh false env = (sp, sh, .ret 0) := by simp only [Spec.flush, if_pos hp]
    rw [e]
    exact Ok.pure (.none _ _)
  · rw [if_pos (fun x => hp (hh.cache.n_zero.mp x))]
    apply Ok.bind
    have hfb := hh.buffered hp
    refine (shr_flush_wake hr hh (by rw [has_WRONLY]; exact hfb.2) k false env hlog).mono (fun _ _ => trivial) ?_
    intro x r' h1
    exact Ok.pure h1

/-- A write that does not have to flush the cache first. -/
def NoFlush (sp : Spec) (sh : SHandle) (iov : List Msg) : Prop :=
  ¬ Legal sp.cap sp.maxm iov ∨ sh.flags.has SHR_BUFFERED = false ∨ Spec.cacheFits sh iov ∨ sh.pend = []

theorem noFlush_of {r : Ring} {sp : Spec} (hr : RingRel r sp) {h : Handle} {sh : SHandle} (hh : HRel sp h sh)
    (hw : sh.flags.has SHR_WRONLY = true) {k : Nat} {iov : List Msg} {e1 e2 : Env} (hwf : WriteWF iov)
    (hn : needsFlush (.live h) (.writev k iov e1 e2) = false) : NoFlush sp sh iov := by
  unfold needsFlush at hn
  dsimp only at hn
  rw [hh.n, hh.mm, lenCheck_wf hr.cap_le hwf, hh.flags, hw] at hn
  by_cases hL : Legal sp.cap sp.maxm iov
  · rw [if_pos hL] at hn
    cases hb : sh.flags.has SHR_BUFFERED
    · exact .inr (.inl hb)
    · rw [hb] at hn
      by_cases hp : sh.pend = []
      · exact .inr (.inr (.inr hp))
      · have : decide (h.c.n ≠ 0) = true := by simpa using fun x => hp (hh.cache.n_zero.mp x)
        rw [this] at hn
        simp only [Bool.true_and, Bool.not_eq_false', decide_eq_true_eq] at hn
        exact .inr (.inr (.inl ((cacheFits_iff hh iov).1 hn)))
  · exact .inl hL

/-- Without a flush, a write is refused, cached, or made directly. -/
theorem writev_cases (sp : Spec) (k : Nat) (sh : SHandle) (iov : List Msg) (envF env : Env) (hn : NoFlush sp sh iov) :
    (sp.writev k sh iov envF env = (sp, sh, .ret (-1))) ∨
    (Spec.cacheFits sh iov ∧ sp.writev k sh iov envF env = (sp, { sh with pend := sh.pend ++ iov }, .ret (bytesOf iov : Int))) ∨
    (Legal sp.cap sp.maxm iov ∧ sp.writev k sh iov envF env =
      ((sp.tryWrite k (sh.flags.has SHR_NONBLOCK) iov env).1, sh, (sp.tryWrite k (sh.flags.has SHR_NONBLOCK) iov env).2)) := by
  unfold Spec.writev
  dsimp only
  by_cases hL : Legal sp.cap sp.maxm iov
  · rw [if_neg (by simpa using hL)]
    by_cases hb : sh.flags.has SHR_BUFFERED = false
    · rw [if_pos hb]; exact .inr (.inr ⟨hL, rfl⟩)
    rw [if_neg hb]
    by_cases hc : Spec.cacheFits sh iov
    · rw [if_pos hc]; exact .inr (.inl ⟨hc, rfl⟩)
    rw [if_neg hc]
    have hp : sh.pend = [] := by
      rcases hn with h | h | h | h
      · exact absurd hL h
      · exact absurd h hb
      · exact absurd h hc
      · exact h
    rw [if_pos hp]; exact .inr (.inr ⟨hL, rfl⟩)
  · rw [if_pos hL]; exact .inl rfl

theorem shr_writev_wake {r : Ring} {sp : Spec} (hr : RingRel r sp) {h : Handle} {sh : SHandle}
    (hh : HRel sp h sh) (hw : sh.flags.has SHR_WRONLY = true) (k : Nat) {iov : List Msg}
    (hwf : WriteWF iov) (envF env : Env) (hn : NoFlush sp sh iov)
    (hlog : sp.farm = true → (sp.writev k sh iov envF env).1.log.length < W) :
    Ok (shr_writev h iov envF env) r (fun _ => True) (fun x _ => WakeOk sp (sp.writev k sh iov envF env).1 x.2) := by
  have hfl := hh.flags
  have hw' : h.flags.has SHR_WRONLY = true := by rw [hfl]; exact hw
  unfold shr_writev
  apply Ok.assert_bind hw'
  rw [hh.n, hh.mm, lenCheck_wf hr.cap_le hwf]
  by_cases hL : Legal sp.cap sp.maxm iov
  case neg =>
    rw [if_neg hL]
    simp only [Spec.writev, if_pos hL]
    exact Ok.pure (.none _ _)
  rw [if_pos hL]
  dsimp only
  apply Ok.bind
  have direct : ∀ (e : (sp.writev k sh iov envF env).1 = (sp.tryWrite k (sh.flags.has SHR_NONBLOCK) iov env).1),
      Ok (do let out ← writevAttempt h.flags h.mm iov (bytesOf iov) env; pure (h, out)) r (fun _ => True)
        (fun x _ => WakeOk sp (sp.writev k sh iov envF env).1 x.2) := by
    intro e
    rw [e] at hlog ⊢
    apply Ok.bind
    rw [hh.mm, hh.flags]
    refine (writevAttempt_spec hr hL k sh.flags env hlog).mono (fun _ _ => trivial) ?_
    rintro o r' ⟨_, _, _, h4⟩
    exact Ok.pure h4
  unfold cacheLoop
  by_cases hb : sh.flags.has SHR_BUFFERED = false
  · rw [if_pos (by rw [hfl]; exact hb)]
    apply Ok.pure
    apply direct
    unfold Spec.writev; dsimp only
    rw [if_neg (by simpa using hL), if_pos hb]
  rw [if_neg (by rw [hfl]; exact hb)]
  by_cases hc : Spec.cacheFits sh iov
  · rw [if_pos ((cacheFits_iff hh iov).2 hc)]
    obtain ⟨c', e, _⟩ := hh.cacheAll hL.2.1 hc
    refine Ok.lift_bind e ?_
    apply Ok.pure
    dsimp only
    apply Ok.pure
    have : (sp.writev k sh iov envF env).1 = sp := by
      unfold Spec.writev; dsimp only
      rw [if_neg (by simpa using hL), if_neg hb, if_pos hc]
    rw [this]
    exact .none _ _
  rw [if_neg (fun x => hc ((cacheFits_iff hh iov).1 x))]
  have hp : sh.pend = [] := by
    rcases hn with h | h | h | h
    · exact absurd hL h
    · exact absurd h hb
    · exact absurd h hc
    · exact h
  rw [if_pos (hh.cache.n_zero.mpr hp)]
  apply Ok.pure
  apply direct
  unfold Spec.writev; dsimp only
  rw [if_neg (by simpa using hL), if_neg hb, if_neg hc, if_pos hp]

/-- What a read tells the other side and itself. -/
theorem readv_force {r : Ring} {sp : Spec} (h : RingRel r sp) {c : RCur} {sh : SHandle}
    (hc : CurRel sp c sh) (hrd : sh.flags.has SHR_RDONLY = true) (hmd : (!sh.flags.has SHR_WRONLY) = true)
    (buf : List Byte) (hbl : buf.length < W) (niov : Nat) (env : Env) :
    Ok (readvAttempt sh.flags c buf buf.length niov env) r (fun _ => True) (fun x _ =>
      x.2.sig.force = none → sp.readv sh buf niov env = (sp, sh, .read (-1) [] buf) ∨
        (sp.readable sh = [] ∧ sh.flags.has SHR_NONBLOCK = false)) := by
  unfold readvAttempt Spec.readv
  apply Ok.assert_bind hrd
  by_cases hb0 : buf.length = 0
  · rw [if_pos hb0, if_pos (Or.inl hb0)]
    exact Ok.pure fun _ => .inl rfl
  rw [if_neg hb0]
  by_cases hn0 : niov = 0
  · rw [if_pos hn0, if_pos (Or.inr (Or.inl hn0))]
    exact Ok.pure fun _ => .inl rfl
  rw [if_neg hn0]
  by_cases hlk : env.lockOk = false
  · rw [if_pos hlk, if_pos (Or.inr (Or.inr hlk))]
    exact Ok.pure fun _ => .inl rfl
  rw [if_neg hlk]
  have hno : ¬ (buf.length = 0 ∨ niov = 0 ∨ env.lockOk = false) := by
    rintro (h | h | h) <;> contradiction
  rw [if_neg hno]
  apply Ok.get_bind
  rw [next_msg_info_catchUp]
  have hv := rview_of h hc
  obtain ⟨hnil, hcons⟩ := next_msg_info_spec hv
  have hlen : (if buf.length > SSIZE_MAX then SSIZE_MAX else buf.length) = min buf.length SSIZE_MAX := by
    split <;> omega
  rcases readable_eq_nil_or (sp := sp) sh with hU | ⟨b, U, hU⟩
  · refine Ok.lift_bind (hnil hU) ?_
    apply Ok.assert_bind hmd
    by_cases hnbk : sh.flags.has SHR_NONBLOCK = true
    · simp only [if_pos hnbk]
      exact Ok.pure fun h => by cases h
    · simp only [if_neg hnbk]
      cases env.waitRc with
      | none => exact Ok.pure fun _ => .inr ⟨hU, by simpa using hnbk⟩
      | some sc => exact Ok.pure fun _ => .inr ⟨hU, by simpa using hnbk⟩
  · obtain ⟨mi, hnm, hinf⟩ := hcons b U hU
    refine Ok.lift_bind hnm ?_
    rw [hU] at hv
    unfold readvBody
    apply Ok.bind
    rw [hlen]
    have hS := SSIZE_MAX_val
    have hrl := readLoop_spec niov (st := ⟨farmCatchUp r c, buf, 0, min buf.length SSIZE_MAX, 0, []⟩) hv hinf
      (by simp; omega) hbl (by simp; omega) (by
        intro hf
        obtain ⟨p0, hC⟩ := hv.core
        rw [(hv.cons hf).2]; exact Nat.mod_lt _ hC.mmpos) (fun _ => True) (fun _ _ => trivial)
    refine hrl.mono (fun _ _ => trivial) ?_
    rintro ⟨st, fl⟩ r1 _
    refine Ok.store_bind trivial ?_
    refine Ok.store_bind trivial ?_
    apply Ok.assert_bind hmd
    apply Ok.pure
    intro h; cases h

/-! ## Effects on the queue -/

/-- What a write does to the queue: nothing at all, or it appends (and drops, on a ring that may). -/
structure WrFacts (sp sp1 : Spec) : Prop where
  calm : sp1.tlog = sp.tlog → sp1 = sp
  grow : sp.drop = false → ∃ new, sp1.unread = sp.unread ++ new

theorem WrFacts.refl (sp : Spec) : WrFacts sp sp := ⟨fun _ => rfl, fun _ => ⟨[], by simp⟩⟩

theorem tryWrite_facts {sp : Spec} (hf : sp.first ≤ sp.log.length) (who : Nat) (nb : Bool) {new : List Msg} (hn : new ≠ [])
    (env : Env) : WrFacts sp (sp.tryWrite who nb new env).1 := by
  have commit : ∀ c, Fits sp.cap sp.maxm sp.unread new ∨ sp.drop = true → WrFacts sp (sp.commit who new c) := by
    intro c h
    refine ⟨fun e => ?_, fun hd => ?_⟩
    · have := congrArg List.length e
      simp only [Spec.commit, List.length_append, List.length_map] at this
      exact absurd (List.length_eq_zero_iff.1 (by omega)) hn
    · have hfit : Fits sp.cap sp.maxm sp.unread new := by
        rcases h with h | h
        · exact h
        · rw [hd] at h; cases h
      exact ⟨new, by rw [commit_unread _ _ _ _ hf, evictCount_zero_of_fits hfit]; rfl⟩
  have := tryCase sp who nb new env
  generalize sp.tryWrite who nb new env = x at this
  cases this with
  | no => exact .refl sp
  | full => exact .refl sp
  | wait => exact .refl sp
  | done _ h => exact commit _ h
  | bad _ h => exact commit _ h

theorem tryWrite_wait {sp : Spec} {who : Nat} {nb : Bool} {new : List Msg} {env : Env}
    (h : (sp.tryWrite who nb new env).2 = .wait) : (sp.tryWrite who nb new env).1 = sp ∧ nb = false ∧
      ¬ Fits sp.cap sp.maxm sp.unread new ∧ sp.drop = false := by
  have := tryCase sp who nb new env
  generalize sp.tryWrite who nb new env = x at this h
  cases this with
  | no => cases h
  | full => cases h
  | wait h1 h2 h3 => exact ⟨rfl, h1, h2, h3⟩
  | done => cases h
  | bad => cases h

theorem flush_facts {sp : Spec} (hf : sp.first ≤ sp.log.length) (k : Nat) (sh : SHandle) (wait : Bool) (env : Env) :
    WrFacts sp (sp.flush k sh wait env).1 := by
  unfold Spec.flush
  by_cases hp : sh.pend = []
  · rw [if_pos hp]; exact .refl sp
  · rw [if_neg hp]
    dsimp only
    split
    · exact .refl sp
    · exact tryWrite_facts hf k _ hp env

/-- A flush that waits. -/
theorem flush_wait {sp : Spec} {k : Nat} {sh : SHandle} {wait : Bool} {env : Env} (h : (sp.flush k sh wait env).2.2 = .wait) :
    (sp.flush k sh wait env).1 = sp ∧ ¬ Fits sp.cap sp.maxm sp.unread sh.pend ∧ sp.drop = false ∧
    (sp.flush k sh wait env).2.1 = { sh with canWait := sh.canWait || (sh.flags.has SHR_NONBLOCK && wait) } ∧
    (sh.flags.has SHR_NONBLOCK && !wait) = false := by
  unfold Spec.flush at h ⊢
  by_cases hp : sh.pend = []
  · rw [if_pos hp] at h; cases h
  rw [if_neg hp] at h ⊢
  dsimp only at h ⊢
  split
  · rename_i hb; rw [if_pos hb] at h; cases h
  · rename_i hb
    rw [if_neg hb] at h
    dsimp only at h ⊢
    obtain ⟨e1, e2, e3, e4⟩ := tryWrite_wait h
    rw [h]
    exact ⟨e1, e3, e4, rfl, e2⟩

/-- How `canWait`, the flags and the cache limits develop in a flush. -/
theorem flush_sh (sp : Spec) (k : Nat) (sh : SHandle) (wait : Bool) (env : Env) :
    (sp.flush k sh wait env).2.1.flags = sh.flags ∧ (sp.flush k sh wait env).2.1.canWait =
      (sh.canWait || (decide (sh.pend ≠ []) && (sh.flags.has SHR_NONBLOCK && wait) && (sh.canWait || (env.lockOk && env.bwOpenOk)))) := by
  unfold Spec.flush
  by_cases hp : sh.pend = []
  · rw [if_pos hp]; simp [hp]
  rw [if_neg hp]
  dsimp only
  split
  · rename_i hb
    obtain ⟨h1, h2, h3⟩ := hb
    refine ⟨rfl, ?_⟩
    rw [h1, h2]
    rcases h3 with h | h <;> simp [h]
  · rename_i hb
    cases h1 : (sh.flags.has SHR_NONBLOCK && wait) <;> cases h2 : sh.canWait <;> rw [h1, h2] at hb <;> dsimp only
    all_goals
      split
      · split
        · simp_all
        · simp_all
      · simp_all

/-- The messages that a suspended call wants to put into the ring. -/
def Op.wanted (sh : SHandle) : Op → List Msg
  | .writev _ iov _ _ => iov
  | _ => sh.pend

/-- The effect of one call and the signals it sends. -/
structure Sent (s : Sys) (sp : Spec) (op : Op) (sp' : Spec) (o : Out) : Prop where
  le : SpLe sp sp'
  wr : (∀ k buf niov env, op ≠ .readv k buf niov env) → ((s.signal op).wake = false → sp'.tlog = sp.tlog ∧ sp'.base = sp.base ∧ sp'.first = sp.first) ∧
    (sp.drop = false → ∃ new, sp'.unread = sp.unread ++ new) ∧ (s.signal op).force = none
  rd : ∀ k buf niov env, op = .readv k buf niov env → sp'.tlog = sp.tlog ∧ sp'.base = sp.base ∧ sp.first ≤ sp'.first ∧
    ((s.signal op).wake = false → sp'.first = sp.first)
  frc : ∀ k buf niov env sh', op = .readv k buf niov env → sp'.hs k = .live sh' → sh'.flags.has SHR_NONBLOCK = true →
    match (s.signal op).force with
    | some f => f = decide (sp'.readable sh' ≠ [])
    | none => sp'.hs k = sp.hs k ∧ sp'.first = sp.first ∧ (o = .misuse ∨ o = .read (-1) [] buf)
  dry : ∀ k buf niov env sh, op = .readv k buf niov env → sp.hs k = .live sh → sp.readable sh = [] → (s.signal op).wake = false
  blkR : ∀ k buf niov env, op = .readv k buf niov env → o = .blocked →
    ∃ sh', sp'.hs k = .live sh' ∧ sh'.flags.has SHR_RDONLY = true ∧ sh'.flags.has SHR_NONBLOCK = false ∧ sp'.readable sh' = []
  blkW : (∀ k buf niov env, op ≠ .readv k buf niov env) → o = .blocked → op.writes = true ∧
    ∃ sh sh', sp.hs op.handle = .live sh ∧ sp'.hs op.handle = .live sh' ∧ sh'.flags = sh.flags ∧ sh'.pend = sh.pend ∧
      sh'.csz = sh.csz ∧ sh'.cvt = sh.cvt ∧ sh'.flags.has SHR_WRONLY = true ∧ sp.drop = false ∧
      (sh'.canWait = true ∨ (sh'.canWait = sh.canWait ∧ sh.flags.has SHR_NONBLOCK = false)) ∧ ¬ Fits sp'.cap sp'.maxm sp'.unread (op.wanted sh')

/-- Calls that leave the queue alone. -/
theorem Sent.quiet {s : Sys} {sp sp' : Spec} {op : Op} {o : Out} (hg : s.signal op = {}) (hle : SpLe sp sp') (h1 : sp'.tlog = sp.tlog)
    (h2 : sp'.base = sp.base) (h3 : sp'.first = sp.first) (h4 : ∀ k buf niov env, op = .readv k buf niov env → sp' = sp ∧ o = .misuse) (h5 : o ≠ .blocked) :
    Sent s sp op sp' o where
  le := hle
  wr := fun _ => ⟨fun _ => ⟨h1, h2, h3⟩, fun _ => ⟨[], by simp [Spec.unread, Spec.log, h1, h3]⟩, by rw [hg]⟩
  rd := fun k buf niov env e => ⟨h1, h2, by omega, fun _ => h3⟩
  frc := fun k buf niov env sh' e hs hn => by rw [hg]; rw [(h4 k buf niov env e).1]; exact ⟨rfl, rfl, .inl (h4 k buf niov env e).2⟩
  dry := fun _ _ _ _ _ _ _ _ => by rw [hg]
  blkR := fun _ _ _ _ _ h => absurd h h5
  blkW := fun _ h => absurd h h5

theorem sig_force (o : WrOut) : o.sig.force = none := by cases o <;> rfl

theorem rel_dead {s : Sys} {sp : Spec} (h : Rel s sp) {k : Nat} (hk : ∀ hd, s.hs k ≠ .live hd) (sh : SHandle) : sp.hs k ≠ .live sh := by
  intro e
  have := h.hs k
  rw [e] at this
  cases h1 : s.hs k with
  | never => rw [h1] at this; exact this
  | live hd => exact hk hd h1
  | gone b => rw [h1] at this; exact this

theorem wakeOk_calm {sp sp1 : Spec} {o : WrOut} (hw : WakeOk sp sp1 o) (hf : WrFacts sp sp1) (hwait : o = .wait → sp1 = sp)
    (h : o.sig.wake = false) : sp1 = sp := by
  cases o with
  | wait => exact hwait rfl
  | ret rc w =>
    have h' : w = false := h
    apply hf.calm
    by_contra hc
    have := (hw rc w rfl).2 hc
    rw [h'] at this; cases this

theorem exec_unique {α : Type} {x : M Ring α} {r : Ring} {T T' : Ring → Prop} {Q Q' : α → Ring → Prop} (h : Ok x r T Q) (h' : Ok x r T' Q') :
    ∃ a r', exec x r = .ok (a, r') ∧ Q a r' ∧ Q' a r' := (h.and h').exec_eq

theorem sent_writev {s : Sys} {sp : Spec} (hr : Rel s sp) (k : Nat) (iov : List Msg) (envF env : Env) (hwf : WriteWF iov)
    (hn : ∀ sh, sp.hs k = .live sh → sh.flags.has SHR_WRONLY = true → NoFlush sp sh iov)
    (hlog : sp.farm = true → (sp.step (.writev k iov envF env)).1.log.length < W) :
    Sent s sp (.writev k iov envF env) (sp.step (.writev k iov envF env)).1 (sp.step (.writev k iov envF env)).2 := by
  have hle := step_le sp (.writev k iov envF env)
  cases e : s.hs k with
  | live h =>
    obtain ⟨sh, hk, hh⟩ := hr.live e
    cases hw : sh.flags.has SHR_WRONLY with
    | false =>
      have e1 : sp.step (.writev k iov envF env) = (sp, .misuse) := by unfold Spec.step; simp only [hk, hw, if_true]
      rw [e1] at hle ⊢
      refine .quiet ?_ hle rfl rfl rfl (fun _ _ _ _ h => by cases h) (by simp)
      unfold Sys.signal; simp only [e, hh.flags, hw, if_true]
    | true =>
      rw [step_writev_eq hk hw] at hle hlog ⊢
      have hn' := hn sh hk hw
      obtain ⟨⟨h', o⟩, r', ex, ⟨hres, _, _⟩, hwk⟩ := exec_unique (shr_writev_spec hr.ring hh hw k hwf envF env hlog) (shr_writev_wake hr.ring hh hw k hwf envF env hn' hlog)
      dsimp only at hres hwk
      have hsig : s.signal (.writev k iov envF env) = o.sig := by
        unfold Sys.signal; simp only [e, hh.flags, hw, Bool.true_eq_false, if_false, ex]
      have hfacts : WrFacts sp (sp.writev k sh iov envF env).1 := by
        rcases writev_cases sp k sh iov envF env hn' with h | ⟨_, h⟩ | ⟨hL, h⟩
        · rw [h]; exact .refl sp
        · rw [h]; exact .refl sp
        · rw [h]; exact tryWrite_facts hr.ring.fle k _ hL.1 env
      have hwt : o = .wait → (sp.writev k sh iov envF env).1 = sp ∧ (sp.writev k sh iov envF env).2.1 = sh ∧
          sh.flags.has SHR_NONBLOCK = false ∧ ¬ Fits sp.cap sp.maxm sp.unread iov ∧ sp.drop = false := by
        rintro rfl
        rcases writev_cases sp k sh iov envF env hn' with h | ⟨_, h⟩ | ⟨hL, h⟩
        · rw [h] at hres; cases hres
        · rw [h] at hres; cases hres
        · rw [h] at hres
          have := tryWrite_wait hres.symm
          rw [h]
          exact ⟨this.1, rfl, this.2⟩
      refine ⟨hle, fun _ => ⟨fun hg => ?_, fun hd => ?_, by rw [hsig]; exact sig_force o⟩, fun _ _ _ _ h => (by cases h), fun _ _ _ _ _ h => (by cases h), fun _ _ _ _ _ h => (by cases h), fun _ _ _ _ h => (by cases h), fun _ hb => ?_⟩
      · rw [hsig] at hg
        have := wakeOk_calm hwk hfacts (fun h => (hwt h).1) hg
        dsimp only
        rw [this]; exact ⟨rfl, rfl, rfl⟩
      · exact hfacts.grow hd
      · have how : o = .wait := by
          cases o with
          | wait => rfl
          | ret rc w => dsimp only at hb; rw [← hres] at hb; cases hb
        obtain ⟨h1, h2, h3, h4, h5⟩ := hwt how
        refine ⟨rfl, sh, sh, hk, ?_, rfl, rfl, rfl, rfl, hw, h5, .inr ⟨rfl, h3⟩, ?_⟩
        · show upd _ _ _ k = _
          rw [upd_same, h2]
        · show ¬ Fits (sp.writev k sh iov envF env).1.cap (sp.writev k sh iov envF env).1.maxm (sp.writev k sh iov envF env).1.unread iov
          rw [h1]; exact h4
  | never =>
    have e1 : sp.step (.writev k iov envF env) = (sp, .misuse) := by
      unfold Spec.step; dsimp only
      cases h2 : sp.hs k with
      | live sh => exact absurd h2 (rel_dead hr (by simp [e]) sh)
      | never => rfl
      | gone b => rfl
    rw [e1] at hle ⊢
    refine .quiet ?_ hle rfl rfl rfl (fun _ _ _ _ h => by cases h) (by simp)
    unfold Sys.signal; simp only [e]
  | gone b =>
    have e1 : sp.step (.writev k iov envF env) = (sp, .misuse) := by
      unfold Spec.step; dsimp only
      cases h2 : sp.hs k with
      | live sh => exact absurd h2 (rel_dead hr (by simp [e]) sh)
      | never => rfl
      | gone b => rfl
    rw [e1] at hle ⊢
    refine .quiet ?_ hle rfl rfl rfl (fun _ _ _ _ h => by cases h) (by simp)
    unfold Sys.signal; simp only [e]

theorem sent_flush {s : Sys} {sp : Spec} (hr : Rel s sp) (k : Nat) (wait : Bool) (env : Env)
    (hlog : sp.farm = true → (sp.step (.flush k wait env)).1.log.length < W) :
    Sent s sp (.flush k wait env) (sp.step (.flush k wait env)).1 (sp.step (.flush k wait env)).2 := by
  have hle := step_le sp (.flush k wait env)
  by_cases hlive : ∃ h, s.hs k = .live h
  · obtain ⟨h, e⟩ := hlive
    obtain ⟨sh, hk, hh⟩ := hr.live e
    cases hw : sh.flags.has SHR_WRONLY with
    | false =>
      have e1 : sp.step (.flush k wait env) = (sp, .misuse) := by unfold Spec.step; simp only [hk, hw, if_true]
      rw [e1] at hle ⊢
      refine .quiet ?_ hle rfl rfl rfl (fun _ _ _ _ h => by cases h) (by simp)
      unfold Sys.signal; simp only [e, hh.flags, hw, if_true]
    | true =>
      rw [step_flush_eq hk hw] at hle hlog ⊢
      obtain ⟨⟨h', o⟩, r', ex, ⟨hres, _, _⟩, hwk⟩ := exec_unique (shr_flush_spec hr.ring hh hw k wait env hlog) (shr_flush_wake hr.ring hh hw k wait env hlog)
      dsimp only at hres hwk
      have hsig : s.signal (.flush k wait env) = o.sig := by
        unfold Sys.signal; simp only [e, hh.flags, hw, Bool.true_eq_false, if_false, ex]
      have hfacts := flush_facts hr.ring.fle k sh wait env
      refine ⟨hle, fun _ => ⟨fun hg => ?_, fun hd => hfacts.grow hd, by rw [hsig]; exact sig_force o⟩, fun _ _ _ _ h => (by cases h), fun _ _ _ _ _ h => (by cases h), fun _ _ _ _ _ h => (by cases h), fun _ _ _ _ h => (by cases h), fun _ hb => ?_⟩
      · rw [hsig] at hg
        have := wakeOk_calm hwk hfacts (fun h => by subst h; exact (flush_wait hres.symm).1) hg
        dsimp only
        rw [this]; exact ⟨rfl, rfl, rfl⟩
      · have how : o = .wait := by
          cases o with
          | wait => rfl
          | ret rc w => dsimp only at hb; rw [← hres] at hb; cases hb
        subst how
        obtain ⟨h1, h2, h3, h4, h5⟩ := flush_wait hres.symm
        refine ⟨rfl, sh, _, hk, upd_same _ _ _, ?_, ?_, ?_, ?_, ?_, h3, ?_, ?_⟩
        · rw [h4]
        · rw [h4]
        · rw [h4]
        · rw [h4]
        · rw [h4]; exact hw
        · rw [h4]
          dsimp only
          cases h6 : sh.flags.has SHR_NONBLOCK
          · exact .inr ⟨by simp, rfl⟩
          · rw [h6] at h5
            have : wait = true := by simpa using h5
            exact .inl (by simp [this])
        · rw [h4]
          show ¬ Fits (sp.flush k sh wait env).1.cap (sp.flush k sh wait env).1.maxm (sp.flush k sh wait env).1.unread sh.pend
          rw [h1]; exact h2
  · have e1 : sp.step (.flush k wait env) = (sp, .misuse) := by
      unfold Spec.step; dsimp only
      cases h2 : sp.hs k with
      | live sh => exact absurd h2 (rel_dead hr (fun h e => hlive ⟨h, e⟩) sh)
      | never => rfl
      | gone b => rfl
    rw [e1] at hle ⊢
    refine .quiet ?_ hle rfl rfl rfl (fun _ _ _ _ h => by cases h) (by simp)
    unfold Sys.signal; dsimp only; split
    · rename_i h e; exact absurd ⟨h, e⟩ hlive
    · rfl

theorem sent_close {s : Sys} {sp : Spec} (hr : Rel s sp) (k : Nat) (env : Env)
    (hlog : sp.farm = true → (sp.step (.close k env)).1.log.length < W) :
    Sent s sp (.close k env) (sp.step (.close k env)).1 (sp.step (.close k env)).2 := by
  have hle := step_le sp (.close k env)
  by_cases hlive : ∃ h, s.hs k = .live h
  · obtain ⟨h, e⟩ := hlive
    obtain ⟨sh, hk, hh⟩ := hr.live e
    have hlog' : sp.farm = true → (sp.flush k sh false env).1.log.length < W := by
      intro hf
      have := hlog hf
      unfold Spec.step at this
      simp only [hk] at this
      split at this <;> exact this
    obtain ⟨o, r', ex, ⟨hres, _⟩, hwk⟩ := exec_unique (shr_close_spec hr.ring hh k env hlog') (shr_close_wake hr.ring hh k env hlog')
    have hsig : s.signal (.close k env) = o.sig := by
      unfold Sys.signal; simp only [e, ex]
    have hfacts := flush_facts hr.ring.fle k sh false env
    have hcalm : o.sig.wake = false → (sp.flush k sh false env).1 = sp :=
      wakeOk_calm hwk hfacts (fun h => by subst h; exact (flush_wait hres.symm).1)
    cases o with
    | wait =>
      obtain ⟨h1, h2, h3, h4, h5⟩ := flush_wait hres.symm
      have e1 : sp.step (.close k env) = (sp, .blocked) := by
        unfold Spec.step; simp only [hk]
        rw [← hres]; dsimp only [WrOut.res]; rw [h1]
      rw [e1] at hle ⊢
      refine ⟨hle, fun _ => ⟨fun hg => ⟨rfl, rfl, rfl⟩, fun hd => ⟨[], by simp⟩, by rw [hsig]; rfl⟩, fun _ _ _ _ h => (by cases h), fun _ _ _ _ _ h => (by cases h), fun _ _ _ _ _ h => (by cases h), fun _ _ _ _ h => (by cases h), fun _ hb => ?_⟩
      have hp : sh.pend ≠ [] := by
        intro hp
        simp only [Spec.flush, if_pos hp] at hres
        cases hres
      refine ⟨rfl, sh, sh, hk, hk, rfl, rfl, rfl, rfl, ?_, h3, .inr ⟨rfl, by simpa using h5⟩, h2⟩
      rw [has_WRONLY]; exact (hh.buffered hp).2
    | ret rc w =>
      have e1 : sp.step (.close k env) = ({ (sp.flush k sh false env).1 with hs := upd sp.hs k (.gone (sp.flush k sh false env).2.1.pend) }, .closed) := by
        unfold Spec.step; simp only [hk]
        rw [← hres]; rfl
      rw [e1] at hle ⊢
      refine ⟨hle, fun _ => ⟨fun hg => ?_, fun hd => hfacts.grow hd, by rw [hsig]; rfl⟩, fun _ _ _ _ h => (by cases h), fun _ _ _ _ _ h => (by cases h), fun _ _ _ _ _ h => (by cases h), fun _ _ _ _ h => (by cases h), fun _ hb => by cases hb⟩
      rw [hsig] at hg
      dsimp only
      rw [hcalm hg]; exact ⟨rfl, rfl, rfl⟩
  · have e1 : sp.step (.close k env) = (sp, .misuse) := by
      unfold Spec.step; dsimp only
      cases h2 : sp.hs k with
      | live sh => exact absurd h2 (rel_dead hr (fun h e => hlive ⟨h, e⟩) sh)
      | never => rfl
      | gone b => rfl
    rw [e1] at hle ⊢
    refine .quiet ?_ hle rfl rfl rfl (fun _ _ _ _ h => by cases h) (by simp)
    unfold Sys.signal; dsimp only; split
    · rename_i h e; exact absurd ⟨h, e⟩ hlive
    · rfl

theorem readv_catch (sp : Spec) (sh : SHandle) : sp.readable (sp.catchUp sh) = sp.readable sh := by
  unfold Spec.readable Spec.catchUp
  cases sp.farm <;> simp

theorem readv_facts (sp : Spec) (sh : SHandle) (buf : List Byte) (niov : Nat) (env : Env) :
    (sp.readv sh buf niov env).1.tlog = sp.tlog ∧ (sp.readv sh buf niov env).1.base = sp.base ∧
    sp.first ≤ (sp.readv sh buf niov env).1.first ∧ (sp.readv sh buf niov env).2.1.flags = sh.flags ∧
    ((sp.readv sh buf niov env).2.2 = .blocked → (sp.readv sh buf niov env).1 = sp ∧
      sp.readable (sp.readv sh buf niov env).2.1 = [] ∧ sh.flags.has SHR_NONBLOCK = false) := by
  unfold Spec.readv
  split
  · exact ⟨rfl, rfl, Nat.le_refl _, rfl, fun h => by cases h⟩
  · have hcf : (sp.catchUp sh).flags = sh.flags := by unfold Spec.catchUp; split <;> rfl
    dsimp only
    by_cases hU : sp.readable sh = []
    · rw [if_pos hU]
      split
      · exact ⟨rfl, rfl, Nat.le_refl _, hcf, fun h => by cases h⟩
      · rename_i hnb
        split
        · exact ⟨rfl, rfl, Nat.le_refl _, hcf, fun h => by cases h⟩
        · exact ⟨rfl, rfl, Nat.le_refl _, hcf, fun _ => ⟨rfl, by rw [readv_catch]; exact hU, by simpa using hnb⟩⟩
    · rw [if_neg hU]
      refine ⟨rfl, rfl, ?_, ?_, fun h => by cases h⟩
      · dsimp only; split <;> omega
      · dsimp only; split <;> exact hcf

theorem readv_first {sp : Spec} {sh : SHandle} {buf : List Byte} {niov : Nat} {env : Env} {rc : Int} {iov : List (Nat × Nat)} {b : List Byte}
    (hne : ∀ m ∈ sp.readable sh, m ≠ []) (h : (sp.readv sh buf niov env).2.2 = .read rc iov b) (hrc : ¬ rc > 0) :
    (sp.readv sh buf niov env).1.first = sp.first := by
  unfold Spec.readv at h ⊢
  by_cases h0 : buf.length = 0 ∨ niov = 0 ∨ env.lockOk = false
  · rw [if_pos h0]
  rw [if_neg h0] at h ⊢
  dsimp only at h ⊢
  by_cases hU : sp.readable sh = []
  · rw [if_pos hU]
    split
    · rfl
    · split <;> rfl
  · rw [if_neg hU] at h ⊢
    dsimp only at h ⊢
    generalize takeCount (sp.readable sh) (min buf.length SSIZE_MAX) niov = t at *
    have h1 := congrArg (fun x => match x with | Out.read rc _ _ => rc | _ => 0) h
    dsimp only at h1
    by_cases ht : t = 0
    · rw [ht]; simp
    · exfalso
      rw [if_neg ht] at h1
      apply hrc
      have : 0 < bytesOf ((sp.readable sh).take t) := by
        apply bytesOf_pos
        · intro x hx; exact hne x (List.mem_of_mem_take hx)
        · simp [ht, hU]
      omega

theorem readv_dry {sp : Spec} {sh : SHandle} {buf : List Byte} {niov : Nat} {env : Env} {rc : Int} {iov : List (Nat × Nat)} {b : List Byte}
    (hU : sp.readable sh = []) (h : (sp.readv sh buf niov env).2.2 = .read rc iov b) : ¬ rc > 0 := by
  unfold Spec.readv at h
  by_cases h0 : buf.length = 0 ∨ niov = 0 ∨ env.lockOk = false
  · rw [if_pos h0] at h; cases h; decide
  rw [if_neg h0] at h
  dsimp only at h
  rw [if_pos hU] at h
  split at h
  · cases h; decide
  · split at h
    · rename_i sc _
      cases h
      cases sc <;> decide
    · cases h

theorem wreadable_ne {r : Ring} {sp : Spec} (h : RingRel r sp) (sh : SHandle) : ∀ m ∈ sp.readable sh, m ≠ [] := by
  obtain ⟨p0, hg⟩ := h.rep.geo
  intro m hm
  unfold Spec.readable at hm
  split at hm
  · apply hg.ne m
    unfold Spec.retained
    have e : max sh.pos sp.base = sp.base + (max sh.pos sp.base - sp.base) := by omega
    rw [e, ← List.drop_drop] at hm
    exact List.mem_of_mem_drop hm
  · exact h.unread_ne m hm

theorem sent_readv {s : Sys} {sp : Spec} (hr : Rel s sp) (k : Nat) (buf : List Byte) (niov : Nat) (env : Env) (hbl : buf.length < W) :
    Sent s sp (.readv k buf niov env) (sp.step (.readv k buf niov env)).1 (sp.step (.readv k buf niov env)).2 := by
  have hle := step_le sp (.readv k buf niov env)
  by_cases hlive : ∃ h, s.hs k = .live h
  · obtain ⟨h, e⟩ := hlive
    obtain ⟨sh, hk, hh⟩ := hr.live e
    cases hw : sh.flags.has SHR_RDONLY with
    | false =>
      have e1 : sp.step (.readv k buf niov env) = (sp, .misuse) := by unfold Spec.step; simp only [hk, hw, if_true]
      rw [e1] at hle ⊢
      refine .quiet ?_ hle rfl rfl rfl (fun _ _ _ _ h => ⟨rfl, rfl⟩) (by simp)
      unfold Sys.signal; simp only [e, hh.flags, hw, if_true]
    | true =>
      rw [step_readv_eq hk hw] at hle ⊢
      have hmd := hh.nowr hw
      obtain ⟨⟨c, o⟩, r', ex, ⟨hout, _, _, hfw⟩, hfn⟩ := exec_unique (readvAttempt_spec hr.ring hh.cur hw hmd buf hbl niov env) (readv_force hr.ring hh.cur hw hmd buf hbl niov env)
      dsimp only at hout hfw hfn
      have ex2 : exec (shr_readv h buf buf.length niov env) s.ring = .ok (({ h with cur := c }, o), r') := by
        unfold shr_readv
        rw [← hh.flags] at ex
        unfold exec at ex ⊢
        rw [M.bind_apply]
        split at ex <;> rename_i e2 <;> cases ex
        rw [e2]; rfl
      have hsig : s.signal (.readv k buf niov env) = o.sig := by
        unfold Sys.signal; simp only [e, hh.flags, hw, Bool.true_eq_false, if_false, ex2]
      obtain ⟨f1, f2, f3, f4, f5⟩ := readv_facts sp sh buf niov env
      refine ⟨hle, fun h => absurd rfl (h k buf niov env), ?_, ?_, ?_, ?_, fun h => absurd rfl (h k buf niov env)⟩
      · intro k' buf' niov' env' e'
        refine ⟨f1, f2, f3, fun hg => ?_⟩
        rw [hsig] at hg
        cases o with
        | wait =>
          show (sp.readv sh buf niov env).1.first = _
          rw [(f5 hout.symm).1]
        | ret rc iov b force wake =>
          have := (hfw rc iov b force wake rfl).2
          have hg' : wake = false := hg
          exact readv_first (wreadable_ne hr.ring sh) hout.symm (fun h => by rw [this.2 h] at hg'; cases hg')
      · intro k' buf' niov' env' sh' e' hs hnb
        cases e'
        have hs' : sh' = (sp.readv sh buf niov env).2.1 := by
          have : upd sp.hs k (.live (sp.readv sh buf niov env).2.1) k = .live sh' := hs
          rw [upd_same] at this; cases this; rfl
        rw [hsig]
        have hnb' : sh.flags.has SHR_NONBLOCK = true := by rw [hs', f4] at hnb; exact hnb
        cases hfo : o.sig.force with
        | none =>
          rcases hfn hfo with h | ⟨_, h⟩
          · dsimp only
            rw [h]; exact ⟨by rw [upd_same]; exact hk.symm, rfl, .inr rfl⟩
          · rw [hnb'] at h; cases h
        | some f =>
          dsimp only
          cases o with
          | wait => cases hfo
          | ret rc iov b force wake =>
            have hfo' : force = some f := hfo
            rcases (hfw rc iov b force wake rfl).1 with h | h
            · rw [hfo'] at h; cases h
            · rw [hfo'] at h
              rw [hs']
              exact Option.some.inj h
      · intro k' buf' niov' env' sh2 e' hk2 hU
        cases e'
        rw [hk] at hk2; cases hk2
        rw [hsig]
        cases o with
        | wait => rfl
        | ret rc iov b force wake =>
          have := (hfw rc iov b force wake rfl).2
          have hd := readv_dry hU hout.symm
          show wake = false
          cases wake
          · rfl
          · exact absurd (this.1 rfl) hd
      · intro k' buf' niov' env' e' hb
        cases e'
        obtain ⟨g1, g2, g3⟩ := f5 hb
        refine ⟨_, upd_same _ _ _, by rw [f4]; exact hw, by rw [f4]; exact g3, ?_⟩
        show (sp.readv sh buf niov env).1.readable (sp.readv sh buf niov env).2.1 = []
        rw [g1]; exact g2
  · have e1 : sp.step (.readv k buf niov env) = (sp, .misuse) := by
      unfold Spec.step; dsimp only
      cases h2 : sp.hs k with
      | live sh => exact absurd h2 (rel_dead hr (fun h e => hlive ⟨h, e⟩) sh)
      | never => rfl
      | gone b => rfl
    rw [e1] at hle ⊢
    refine .quiet ?_ hle rfl rfl rfl (fun _ _ _ _ h => ⟨rfl, rfl⟩) (by simp)
    unfold Sys.signal; dsimp only; split
    · rename_i h e; exact absurd ⟨h, e⟩ hlive
    · rfl

theorem appdata_frame (sp : Spec) (get : GetArg) (set : Option (List Byte)) (sz : Nat) (env : Env) :
    (sp.appdata get set sz env).1.tlog = sp.tlog ∧ (sp.appdata get set sz env).1.base = sp.base ∧
    (sp.appdata get set sz env).1.first = sp.first := by
  unfold Spec.appdata
  dsimp only
  repeat' split
  all_goals exact ⟨rfl, rfl, rfl⟩

/-- Every call: its effect on the queue and the signals it sends. -/
theorem sent_step {s : Sys} {sp : Spec} (hr : Rel s sp) (op : Op) (hwf : op.WF sp.app.length)
    (hn : ∀ k iov e1 e2 sh, op = .writev k iov e1 e2 → sp.hs k = .live sh → sh.flags.has SHR_WRONLY = true → NoFlush sp sh iov)
    (hlog : sp.farm = true → (sp.step op).1.log.length < W) : Sent s sp op (sp.step op).1 (sp.step op).2 := by
  have hle := step_le sp op
  cases op with
  | «open» k flags env =>
    refine .quiet rfl hle ?_ ?_ ?_ (fun _ _ _ _ h => by cases h) ?_ <;> (unfold Spec.step; dsimp only; split) <;> try (split; rotate_left; split)
    all_goals first | rfl | simp
  | writev k iov e1 e2 => exact sent_writev hr k iov e1 e2 hwf (fun sh => hn k iov e1 e2 sh rfl) hlog
  | readv k buf niov env => exact sent_readv hr k buf niov env hwf
  | flush k wait env => exact sent_flush hr k wait env hlog
  | close k env => exact sent_close hr k env hlog
  | stat k reset env =>
    refine .quiet rfl hle ?_ ?_ ?_ (fun _ _ _ _ h => by cases h) ?_ <;> (unfold Spec.step; dsimp only; split) <;> try (split; rotate_left)
    all_goals first | rfl | (cases reset <;> rfl) | simp
  | farmStat k reset =>
    refine .quiet rfl hle ?_ ?_ ?_ (fun _ _ _ _ h => by cases h) ?_ <;> (unfold Spec.step; dsimp only; split) <;> try (split; rotate_left)
    all_goals first | rfl | simp
  | appdata k get set sz env =>
    obtain ⟨f1, f2, f3⟩ := appdata_frame sp get set sz env
    refine .quiet rfl hle ?_ ?_ ?_ (fun _ _ _ _ h => by cases h) ?_ <;> (unfold Spec.step; dsimp only; split)
    all_goals first | rfl | assumption | simp

end Shr
