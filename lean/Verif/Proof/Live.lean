import Verif.Props.Wake
import Verif.Proof.ToolSys
/-! # Progress of waiting calls: one attempt, in terms of the specification -/
namespace Shr

/-- The environment of the (second) attempt. -/
def Op.envOf : Op → Env
  | .open _ _ e => e
  | .writev _ _ _ e => e
  | .readv _ _ _ e => e
  | .flush _ _ e => e
  | .close _ e => e
  | .stat _ _ e => e
  | .farmStat _ _ => {}
  | .appdata _ _ _ _ e => e

/-- What a waiting call satisfies: its messages go into the ring directly, and it waits if there is no space. -/
def SDirect (sh : SHandle) : Op → Prop
  | .writev _ iov _ _ => sh.flags.has SHR_NONBLOCK = false ∧ (sh.flags.has SHR_BUFFERED = false ∨ (¬ Spec.cacheFits sh iov ∧ sh.pend = []))
  | .flush _ wait _ => sh.pend ≠ [] ∧ (sh.flags.has SHR_NONBLOCK && !wait) = false
  | .close _ _ => sh.pend ≠ [] ∧ sh.flags.has SHR_NONBLOCK = false
  | _ => True

/-- What a waiting write, flush or close returns when it succeeds. -/
def Op.success (new : List Msg) : Op → Out
  | .close _ _ => .closed
  | _ => .wrote (bytesOf new)

/-- An attempt to write that waits if there is no space. -/
theorem tryWrite_retry (sp : Spec) (who : Nat) (new : List Msg) {env : Env} (hl : env.lockOk = true) (hw : env.waitRc = none) (hd : sp.drop = false)
    (hf : sp.first ≤ sp.log.length) :
    (¬ Fits sp.cap sp.maxm sp.unread new ∧ sp.tryWrite who false new env = (sp, .wait)) ∨
    (Fits sp.cap sp.maxm sp.unread new ∧ (sp.tryWrite who false new env).1.unread = sp.unread ++ new ∧
      (∃ rc, (sp.tryWrite who false new env).2 = .ret rc) ∧ (env.wakeOk = true → env.syncOk = true → (sp.tryWrite who false new env).2 = .ret (bytesOf new))) := by
  unfold Spec.tryWrite
  rw [if_neg (by rw [hl]; decide)]
  by_cases h : Fits sp.cap sp.maxm sp.unread new
  · rw [if_pos (.inl h)]
    refine .inr ⟨h, ?_, ?_, ?_⟩
    · dsimp only
      rw [commit_unread _ _ _ _ hf, evictCount_zero_of_fits h]; rfl
    · dsimp only
      repeat' split
      all_goals exact ⟨_, rfl⟩
    · intro h1 h2
      dsimp only
      rw [if_neg (by rw [h1]; decide), if_neg (by rw [h2]; simp)]
  · rw [if_neg (by rw [hd]; simpa using h), if_neg (by decide), hw]
    exact .inl ⟨h, rfl⟩

/-- One more attempt of a waiting write, flush or close. -/
theorem retry_spec {sp : Spec} {op : Op} {sh : SHandle} (hk : sp.hs op.handle = .live sh) (hs : Suspended sp sh op) (hd : SDirect sh op)
    (hw : op.writes = true) (hf : sp.first ≤ sp.log.length) (hl : op.envOf.lockOk = true) (hr : op.envOf.waitRc = none) :
    (¬ Fits sp.cap sp.maxm sp.unread (op.wanted sh) ∧ (sp.step op).2 = .blocked ∧ (sp.step op).1.unread = sp.unread ∧
      ∃ sh', (sp.step op).1.hs op.handle = .live sh' ∧ sh'.pend = sh.pend) ∨
    (Fits sp.cap sp.maxm sp.unread (op.wanted sh) ∧ (sp.step op).1.unread = sp.unread ++ op.wanted sh ∧ (sp.step op).2 ≠ .blocked ∧
      (op.envOf.wakeOk = true → op.envOf.syncOk = true → (sp.step op).2 = op.success (op.wanted sh))) := by
  rcases hs with ⟨⟨_, _, _, _, rfl⟩, _⟩ | ⟨_, hwo, hcw, hdr, hnf⟩
  · cases hw
  cases op with
  | writev k iov e1 e2 =>
    obtain ⟨d1, d2⟩ := hd
    have hL := (hnf _ _ _ _ rfl).2
    have hk : sp.hs k = .live sh := hk
    have e : sp.writev k sh iov e1 e2 = ((sp.tryWrite k false iov e2).1, sh, (sp.tryWrite k false iov e2).2) := by
      unfold Spec.writev
      dsimp only
      rw [if_neg (by simpa using hL), d1]
      rcases d2 with d2 | ⟨d2, d3⟩
      · rw [if_pos d2]
      · by_cases hb : sh.flags.has SHR_BUFFERED = false
        · rw [if_pos hb]
        · rw [if_neg hb, if_neg d2, if_pos d3]
    simp only [Spec.step, Op.handle, hk, hwo, e, Op.wanted, Op.success]
    rw [if_neg (by simp)]
    rcases tryWrite_retry sp k iov (env := e2) hl hr hdr hf with ⟨h1, h2⟩ | ⟨h1, h2, ⟨rc, h3⟩, h4⟩
    · rw [h2]
      exact .inl ⟨h1, rfl, rfl, sh, upd_same _ _ _, rfl⟩
    · refine .inr ⟨h1, h2, ?_, fun a b => ?_⟩
      · dsimp only; rw [h3]; intro x; cases x
      · dsimp only; rw [h4 a b]; rfl
  | flush k wait env =>
    obtain ⟨d1, d2⟩ := hd
    have hk : sp.hs k = .live sh := hk
    have e : (sp.flush k sh wait env).1 = (sp.tryWrite k false sh.pend env).1 ∧ (sp.flush k sh wait env).2.2 = (sp.tryWrite k false sh.pend env).2 := by
      unfold Spec.flush
      rw [if_neg d1]
      dsimp only
      rw [if_neg (by rw [hcw]; simp), d2]
      exact ⟨rfl, rfl⟩
    simp only [Spec.step, Op.handle, hk, hwo, Op.wanted, Op.success]
    rw [if_neg (by simp)]
    rcases tryWrite_retry sp k sh.pend (env := env) hl hr hdr hf with ⟨h1, h2⟩ | ⟨h1, h2, ⟨rc, h3⟩, h4⟩
    · refine .inl ⟨h1, ?_, ?_, _, upd_same _ _ _, ?_⟩
      · dsimp only; rw [e.2, h2]; rfl
      · show Spec.unread _ = _
        unfold Spec.unread Spec.log
        dsimp only; rw [e.1, h2]
      · rw [(flush_wait (by rw [e.2, h2])).2.2.2.1]
    · refine .inr ⟨h1, ?_, ?_, fun a b => ?_⟩
      · rw [← h2, ← e.1]; rfl
      · dsimp only; rw [e.2, h3]; intro x; cases x
      · dsimp only; rw [e.2, h4 a b]; rfl
  | close k env =>
    obtain ⟨d1, d2⟩ := hd
    have hk : sp.hs k = .live sh := hk
    have e : (sp.flush k sh false env).1 = (sp.tryWrite k false sh.pend env).1 ∧ (sp.flush k sh false env).2.2 = (sp.tryWrite k false sh.pend env).2 := by
      unfold Spec.flush
      rw [if_neg d1]
      dsimp only
      rw [if_neg (by simp), d2]
      exact ⟨rfl, rfl⟩
    simp only [Spec.step, Op.handle, hk, Op.wanted, Op.success]
    rcases tryWrite_retry sp k sh.pend (env := env) hl hr hdr hf with ⟨h1, h2⟩ | ⟨h1, h2, ⟨rc, h3⟩, h4⟩
    · have e2 : (sp.flush k sh false env).2.2 = .wait := by rw [e.2, h2]
      rw [e2]
      refine .inl ⟨h1, rfl, ?_, sh, ?_, rfl⟩
      · rw [e.1, h2]
      · dsimp only; rw [e.1, h2]; exact hk
    · have e2 : (sp.flush k sh false env).2.2 = .ret rc := by rw [e.2, h3]
      rw [e2]
      refine .inr ⟨h1, ?_, ?_, fun a b => rfl⟩
      · rw [← h2, ← e.1]; rfl
      · intro x; cases x
  | «open» k flags env => cases hw
  | readv k buf niov env => cases hw
  | stat k reset env => cases hw
  | farmStat k reset => cases hw
  | appdata k get set sz env => cases hw

/-- A call that has to wait. -/
theorem blocked_direct {sp : Spec} {op : Op} (hnf : ∀ k iov e1 e2 sh, op = .writev k iov e1 e2 → sp.hs k = .live sh → sh.flags.has SHR_WRONLY = true → NoFlush sp sh iov)
    (h : (sp.step op).2 = .blocked) : ∃ sh', (sp.step op).1.hs op.handle = .live sh' ∧ SDirect sh' op := by
  cases op with
  | «open» k flags env =>
    exfalso
    unfold Spec.step at h; dsimp only at h
    repeat' split at h
    all_goals cases h
  | stat k reset env =>
    exfalso
    unfold Spec.step at h; dsimp only at h
    repeat' split at h
    all_goals cases h
  | farmStat k reset =>
    exfalso
    unfold Spec.step at h; dsimp only at h
    repeat' split at h
    all_goals cases h
  | appdata k get set sz env =>
    exfalso
    unfold Spec.step at h; dsimp only at h
    repeat' split at h
    all_goals cases h
  | readv k buf niov env =>
    unfold Spec.step at h ⊢; dsimp only at h ⊢
    cases hk : sp.hs k with
    | never => rw [hk] at h; cases h
    | gone b => rw [hk] at h; cases h
    | live sh =>
      rw [hk] at h; dsimp only at h ⊢
      by_cases hwo : sh.flags.has SHR_RDONLY = false
      · rw [if_pos hwo] at h; cases h
      rw [if_neg hwo]
      exact ⟨_, upd_same _ _ _, trivial⟩
  | writev k iov e1 e2 =>
    unfold Spec.step at h ⊢; dsimp only at h ⊢
    cases hk : sp.hs k with
    | never => rw [hk] at h; cases h
    | gone b => rw [hk] at h; cases h
    | live sh =>
      rw [hk] at h; dsimp only at h ⊢
      by_cases hwo : sh.flags.has SHR_WRONLY = false
      · rw [if_pos hwo] at h; cases h
      rw [if_neg hwo] at h ⊢
      dsimp only at h ⊢
      refine ⟨_, upd_same _ _ _, ?_⟩
      have hn := hnf k iov e1 e2 sh rfl hk (by simpa using hwo)
      rcases writev_cases sp k sh iov e1 e2 hn with c | ⟨_, c⟩ | ⟨hL, c⟩
      · rw [c] at h; cases h
      · rw [c] at h; cases h
      · rw [c] at h ⊢
        dsimp only at h ⊢
        have hwt : (sp.tryWrite k (sh.flags.has SHR_NONBLOCK) iov e2).2 = .wait := by
          cases hx : (sp.tryWrite k (sh.flags.has SHR_NONBLOCK) iov e2).2 with
          | wait => rfl
          | ret rc => rw [hx] at h; cases h
        obtain ⟨_, g1, g2, g3⟩ := tryWrite_wait hwt
        refine ⟨g1, ?_⟩
        by_cases hb : sh.flags.has SHR_BUFFERED = false
        · exact .inl hb
        · right
          have hcf : ¬ Spec.cacheFits sh iov := by
            intro hc
            have c := congrArg (fun x => x.2.2) c
            unfold Spec.writev at c
            dsimp only at c
            rw [if_neg (by simpa using hL), if_neg hb, if_pos hc, hwt] at c
            cases c
          refine ⟨hcf, ?_⟩
          rcases hn with n | n | n | n
          · exact absurd hL n
          · exact absurd n hb
          · exact absurd n hcf
          · exact n
  | flush k wait env =>
    unfold Spec.step at h ⊢; dsimp only at h ⊢
    cases hk : sp.hs k with
    | never => rw [hk] at h; cases h
    | gone b => rw [hk] at h; cases h
    | live sh =>
      rw [hk] at h; dsimp only at h ⊢
      by_cases hwo : sh.flags.has SHR_WRONLY = false
      · rw [if_pos hwo] at h; cases h
      rw [if_neg hwo] at h ⊢
      dsimp only at h ⊢
      refine ⟨_, upd_same _ _ _, ?_⟩
      have hwt : (sp.flush k sh wait env).2.2 = .wait := by
        cases hx : (sp.flush k sh wait env).2.2 with
        | wait => rfl
        | ret rc => rw [hx] at h; cases h
      obtain ⟨_, _, _, g4, g5⟩ := flush_wait hwt
      rw [g4]
      refine ⟨?_, g5⟩
      intro hp
      have hp : sh.pend = [] := hp
      unfold Spec.flush at hwt
      rw [if_pos hp] at hwt
      cases hwt
  | close k env =>
    unfold Spec.step at h ⊢; dsimp only at h ⊢
    cases hk : sp.hs k with
    | never => rw [hk] at h; cases h
    | gone b => rw [hk] at h; cases h
    | live sh =>
      rw [hk] at h; dsimp only at h ⊢
      cases hx : (sp.flush k sh false env).2.2 with
      | ret rc => rw [hx] at h; cases h
      | wait =>
        dsimp only
        obtain ⟨g1, _, _, _, g5⟩ := flush_wait hx
        rw [g1]
        refine ⟨sh, hk, ?_, by simpa using g5⟩
        intro hp
        unfold Spec.flush at hx
        rw [if_pos hp] at hx
        cases hx

/-- A read with a buffer in which every message fits. -/
theorem read_spec {r : Ring} {sp : Spec} (hr : RingRel r sp) {k : Nat} {buf : List Byte} {niov : Nat} {env : Env} {sh : SHandle} (hk : sp.hs k = .live sh)
    (hro : sh.flags.has SHR_RDONLY = true) (hfm : sp.farm = false) (hl : env.lockOk = true) (hw : env.waitRc = none) (hn : 0 < niov) (hb : sp.cap ≤ buf.length) :
    (sp.unread = [] ∧ sh.flags.has SHR_NONBLOCK = false ∧ (sp.step (.readv k buf niov env)).2 = .blocked ∧ (sp.step (.readv k buf niov env)).1.unread = sp.unread) ∨
    (sp.unread = [] ∧ sh.flags.has SHR_NONBLOCK = true ∧ (sp.step (.readv k buf niov env)).2 = .read 0 [] buf ∧ (sp.step (.readv k buf niov env)).1.unread = sp.unread) ∨
    ((sp.step (.readv k buf niov env)).2 ≠ .blocked ∧ (sp.step (.readv k buf niov env)).1.unread.length < sp.unread.length) := by
  obtain ⟨p0, hg⟩ := hr.rep.geo
  have hcap : 0 < sp.cap := by rw [← hr.n]; exact hg.npos
  have hcs := hr.cap_le
  have hread : sp.readable sh = sp.unread := by unfold Spec.readable; rw [hfm]; rfl
  simp only [Spec.step, hk]
  rw [if_neg (by rw [hro]; decide)]
  unfold Spec.readv
  have hne0 : ¬ (buf.length = 0 ∨ niov = 0 ∨ env.lockOk = false) := by
    rw [hl]; rintro (x | x | x)
    · omega
    · omega
    · cases x
  rw [if_neg hne0]
  dsimp only
  rw [hread, hfm]
  by_cases hU : sp.unread = []
  · rw [if_pos hU]
    by_cases hnb : sh.flags.has SHR_NONBLOCK = true
    · rw [if_pos hnb]
      exact .inr (.inl ⟨hU, hnb, rfl, rfl⟩)
    · rw [if_neg hnb, hw]
      exact .inl ⟨hU, by simpa using hnb, rfl, rfl⟩
  · rw [if_neg hU]
    refine .inr (.inr ⟨(by intro x; cases x), ?_⟩)
    have htot : bytesOf sp.unread ≤ sp.cap := by
      have := hg.tot
      rw [hr.n] at this
      rw [← hr.unread_eq]
      exact Nat.le_trans (bytesOf_drop_le _ _) this
    have ht : 1 ≤ takeCount sp.unread (min buf.length SSIZE_MAX) niov := by
      refine takeCount_max ?_ hn ?_
      · cases hx : sp.unread with
        | nil => exact absurd hx hU
        | cons a l => simp
      · refine Nat.le_trans (m := bytesOf sp.unread) ?_ (by omega)
        cases hx : sp.unread with
        | nil => exact absurd hx hU
        | cons a l => simp [bytesOf]
    have hlen : 0 < sp.unread.length := List.length_pos_iff.2 hU
    generalize takeCount sp.unread (min buf.length SSIZE_MAX) niov = t at *
    simp only [Spec.unread, Spec.log, List.length_drop] at hlen ⊢
    simp only [Bool.false_eq_true, if_false]
    omega

/-! ## The environment of a further attempt -/

theorem susp_withEnv {sp : Spec} {sh : SHandle} {op : Op} (e : Env) (h : Suspended sp sh op) : Suspended sp sh (op.withEnv e) := by
  rcases h with ⟨⟨k, buf, niov, env, rfl⟩, h1, h2⟩ | ⟨h1, h2, h3, h4, h5⟩
  · exact .inl ⟨⟨_, _, _, _, rfl⟩, h1, h2⟩
  · refine .inr ⟨by rw [withEnv_writes]; exact h1, h2, h3, h4, ?_⟩
    intro k iov e1 e2 he
    cases op <;> simp only [Op.withEnv] at he <;> cases he
    exact h5 _ _ _ _ rfl

theorem susp_fill {sp : Spec} {sh : SHandle} {op : Op} (w : WSys) (pid : Nat → Nat) (os : WOs) (h : Suspended sp sh op) : Suspended sp sh (w.fill pid os op) := by
  rcases h with ⟨⟨k, buf, niov, env, rfl⟩, h1, h2⟩ | ⟨h1, h2, h3, h4, h5⟩
  · exact .inl ⟨⟨_, _, _, _, rfl⟩, h1, h2⟩
  · refine .inr ⟨by rw [fill_writes]; exact h1, h2, h3, h4, ?_⟩
    intro k iov e1 e2 he
    cases op <;> simp only [WSys.fill] at he <;> cases he
    exact h5 _ _ _ _ rfl

theorem direct_withEnv {sh : SHandle} {op : Op} (e : Env) : SDirect sh (op.withEnv e) ↔ SDirect sh op := by cases op <;> exact Iff.rfl
theorem direct_fill {sh : SHandle} {op : Op} (w : WSys) (pid : Nat → Nat) (os : WOs) : SDirect sh (w.fill pid os op) ↔ SDirect sh op := by
  cases op <;> exact Iff.rfl
theorem wanted_withEnv (op : Op) (e : Env) (sh : SHandle) : (op.withEnv e).wanted sh = op.wanted sh := by cases op <;> rfl
theorem success_withEnv (op : Op) (e : Env) (new : List Msg) : (op.withEnv e).success new = op.success new := by cases op <;> rfl
theorem success_fill (w : WSys) (pid : Nat → Nat) (os : WOs) (op : Op) (new : List Msg) : (w.fill pid os op).success new = op.success new := by
  cases op <;> rfl
theorem withEnv_waitsOn (op : Op) (e : Env) : (op.withEnv e).waitsOn = op.waitsOn := by cases op <;> rfl
theorem wants_withEnv (s : Sys) (op : Op) (e : Env) : s.wants (op.withEnv e) = s.wants op := by cases op <;> rfl

theorem fill_env {w : WSys} {pid : Nat → Nat} {os : WOs} {op : Op} (h : op.writes = true ∨ ∃ k buf niov env, op = .readv k buf niov env) :
    (w.fill pid os op).envOf.lockOk = op.envOf.lockOk ∧ (w.fill pid os op).envOf.waitRc = none ∧ (w.fill pid os op).envOf.syncOk = op.envOf.syncOk := by
  rcases h with h | ⟨_, _, _, _, rfl⟩
  · cases op <;> first | exact ⟨rfl, rfl, rfl⟩ | cases h
  · exact ⟨rfl, rfl, rfl⟩

theorem envOf_withEnv {op : Op} (e : Env) (h : op.writes = true ∨ ∃ k buf niov env, op = .readv k buf niov env) : (op.withEnv e).envOf = e := by
  rcases h with h | ⟨_, _, _, _, rfl⟩
  · cases op <;> first | rfl | cases h
  · rfl

/-! ## A call that has to wait makes no block/wake calls, except that a flush may open its handle -/

theorem signal_blocked {s s' : Sys} {op : Op} (h : s.step op = .ok (s', .blocked)) : s.signal op = {} := by
  have wr : ∀ {o : WrOut}, o.out = .blocked → o.sig = {} := by intro o e; cases o <;> first | rfl | cases e
  have rd : ∀ {o : RdOut}, o.out = .blocked → o.sig = {} := by intro o e; cases o <;> first | rfl | cases e
  cases op with
  | «open» | stat | farmStat | appdata => rfl
  | writev k iov e1 e2 =>
    unfold Sys.step at h; unfold Sys.signal; dsimp only at h ⊢
    cases hk : s.hs k with
    | never => rfl
    | gone b => rfl
    | live hd =>
      rw [hk] at h; dsimp only at h ⊢
      split
      · rfl
      · rename_i hn
        rw [if_neg hn] at h
        cases hx : exec (shr_writev hd iov e1 e2) s.ring with
        | error f => rfl
        | ok y => rw [hx] at h; dsimp only at h ⊢; injection h with h; injection h with _ h; exact wr h
  | readv k buf niov env =>
    unfold Sys.step at h; unfold Sys.signal; dsimp only at h ⊢
    cases hk : s.hs k with
    | never => rfl
    | gone b => rfl
    | live hd =>
      rw [hk] at h; dsimp only at h ⊢
      split
      · rfl
      · rename_i hn
        rw [if_neg hn] at h
        cases hx : exec (shr_readv hd buf buf.length niov env) s.ring with
        | error f => rfl
        | ok y => rw [hx] at h; dsimp only at h ⊢; injection h with h; injection h with _ h; exact rd h
  | flush k wait env =>
    unfold Sys.step at h; unfold Sys.signal; dsimp only at h ⊢
    cases hk : s.hs k with
    | never => rfl
    | gone b => rfl
    | live hd =>
      rw [hk] at h; dsimp only at h ⊢
      split
      · rfl
      · rename_i hn
        rw [if_neg hn] at h
        cases hx : exec (shr_flush hd wait env) s.ring with
        | error f => rfl
        | ok y => rw [hx] at h; dsimp only at h ⊢; injection h with h; injection h with _ h; exact wr h
  | close k env =>
    unfold Sys.step at h; unfold Sys.signal; dsimp only at h ⊢
    cases hk : s.hs k with
    | never => rfl
    | gone b => rfl
    | live hd =>
      rw [hk] at h; dsimp only at h ⊢
      cases hx : exec (shr_close hd env) s.ring with
      | error f => rfl
      | ok y =>
        obtain ⟨o, r⟩ := y
        rw [hx] at h
        cases o with
        | wait => rfl
        | ret rc b => dsimp only at h; injection h with h; injection h with _ h; cases h

/-- A flush on a handle that can wait does not open anything. -/
theorem flushPre_nil {w : WSys} {sp : Spec} (hr : Rel w.sys sp) {pid : Nat → Nat} {k : Nat} {sh : SHandle} (hk : sp.hs k = .live sh) (hc : sh.canWait = true) (wait : Bool) (env : Env) (os : WOs) :
    w.flushPre pid k wait env os = [] := by
  obtain ⟨hd, h1, h2⟩ := hr.live' hk
  have : w.flushOpens k wait env = false := by
    unfold WSys.flushOpens
    rw [h1]
    dsimp only
    rw [h2.r2w, hc]
    simp
  unfold WSys.flushPre
  rw [this]
  rfl

theorem bops_blocked {w : WSys} {sp : Spec} (hr : Rel w.sys sp) {pid : Nat → Nat} {op : Op} {os : WOs} {s' : Sys}
    (hno : ∀ k flags env, op ≠ .open k flags env) (hc : ∀ k wait env, op = .flush k wait env → ∃ sh, sp.hs k = .live sh ∧ sh.canWait = true)
    (h : w.sys.step op = .ok (s', .blocked)) : w.bops pid os .blocked op = [] := by
  have hs := signal_blocked h
  cases op with
  | «open» k flags env => exact absurd rfl (hno _ _ _)
  | stat | farmStat | appdata => rfl
  | writev k iov e1 e2 => unfold WSys.bops; dsimp only; rw [hs]; rfl
  | readv k buf niov env => unfold WSys.bops; dsimp only; rw [hs]; rfl
  | flush k wait env =>
    obtain ⟨sh, h1, h2⟩ := hc k wait env rfl
    unfold WSys.bops; dsimp only; rw [hs, flushPre_nil hr h1 h2]; rfl
  | close k env => unfold WSys.bops; dsimp only; rw [hs]; rfl

/-! ## What is known of waiting calls, on every reachable state -/

theorem HRel.det {sp sp' : Spec} {hd : Handle} {sh sh' : SHandle} (h : HRel sp hd sh) (h' : HRel sp' hd sh') :
    sh'.flags = sh.flags ∧ sh'.pend = sh.pend ∧ sh'.csz = sh.csz ∧ sh'.cvt = sh.cvt :=
  ⟨h'.flags.symm.trans h.flags, h'.cache.msgs.symm.trans h.cache.msgs, h'.cache.sz.symm.trans h.cache.sz, h'.cache.vt.symm.trans h.cache.vt⟩

theorem SDirect.congr {sh sh' : SHandle} (h1 : sh'.flags = sh.flags) (h2 : sh'.pend = sh.pend) (h3 : sh'.csz = sh.csz) (h4 : sh'.cvt = sh.cvt) {op : Op}
    (h : SDirect sh op) : SDirect sh' op := by
  cases op <;> first
    | trivial
    | (simp only [SDirect, Spec.cacheFits, h1, h2, h3, h4] at h ⊢; exact h)

/-- On all reachable states. -/
def Waiting (w : WSys) : Prop :=
  ∀ k op b, w.blk k = some (op, b) → ∃ hd, w.sys.hs k = .live hd ∧ ∃ sp sh, HRel sp hd sh ∧ SDirect sh op

theorem Waiting.at {w : WSys} (h : Waiting w) {sp : Spec} (hr : Rel w.sys sp) {k : Nat} {op : Op} {b : Bool} (hb : w.blk k = some (op, b)) {sh : SHandle}
    (hk : sp.hs k = .live sh) : SDirect sh op := by
  obtain ⟨hd, h1, sp0, sh0, h2, h3⟩ := h k op b hb
  obtain ⟨sh', g1, g2⟩ := hr.live h1
  rw [hk] at g1; cases g1
  obtain ⟨e1, e2, e3, e4⟩ := h2.det g2
  exact h3.congr e1 e2 e3 e4

theorem AReach.waiting {a : InitArgs} {pid : Nat → Nat} {hist : List Op} {w : WSys} (h : AReach a pid hist w) : Waiting w := by
  induction h with
  | init h => intro k op b hb; cases hb
  | step hre hs ih =>
    rename_i hist w w' x o ops
    have hre' := AReach.step hre hs
    obtain ⟨sp, hw, hp, hl⟩ := hre.state
    obtain ⟨hwf, hfarm, hst⟩ := hs
    -- an attempt of `op`
    have att : ∀ (op : Op) (os : WOs), op.WF a.appsize →
        (∀ k iov e1 e2 sh, op = .writev k iov e1 e2 → sp.hs k = .live sh → sh.flags.has SHR_WRONLY = true → NoFlush sp sh iov) →
        (sp.farm = true → (sp.step (w.fill pid os op)).1.log.length < W) → w.attempt pid op os = some (w', o, ops) → Waiting w' := by
      intro op os hwf hnf hlog hat k op' b hb
      have hwf' : (w.fill pid os op).WF sp.app.length := by rw [hw.app]; exact fill_wf.2 hwf
      obtain ⟨s', hst2, hrel'⟩ := step_refine hw.rel (w.fill pid os op) hwf' hlog
      unfold WSys.attempt at hat
      rw [hst2] at hat
      simp only [Option.some.injEq, Prod.mk.injEq] at hat
      obtain ⟨rfl, rfl, rfl⟩ := hat
      dsimp only at hb ⊢
      by_cases hj : k = op.handle
      · subst hj
        rw [upd_same] at hb
        split at hb
        · rename_i hbl
          cases hb
          obtain ⟨sh', e1, e2⟩ := blocked_direct (by
            intro k iov e1 e2 sh he
            cases op <;> simp only [WSys.fill] at he <;> cases he
            exact hnf _ _ _ _ sh rfl) hbl
          rw [fill_handle] at e1
          obtain ⟨hd, g1, g2⟩ := hrel'.live' e1
          exact ⟨hd, g1, _, _, g2, (direct_fill w pid os).1 e2⟩
        · cases hb
      · rw [upd_other _ _ hj] at hb
        obtain ⟨hd, g1, g2⟩ := ih k op' b hb
        refine ⟨hd, ?_, g2⟩
        rw [sys_step_other hst2 (by rw [fill_handle]; exact fun e => hj e.symm)]
        exact g1
    have bound : ∀ (op : Op) (os : WOs), x.issued w = [op] ∨ (∃ op0 e, x.issued w = [op0] ∧ op = op0.withEnv e) →
        (sp.farm = true → (sp.step (w.fill pid os op)).1.log.length < W) := by
      intro op os hi hf
      obtain ⟨g1, _⟩ := count_bound (op := w.fill pid os op) hp hl
      have ho : offered [w.fill pid os op] = offered (x.issued w) ∧ (x.issued w).length = 1 := by
        rw [offered_fill]
        rcases hi with hi | ⟨op0, e, hi, rfl⟩
        · rw [hi]; exact ⟨rfl, rfl⟩
        · rw [hi, offered_withEnv]; exact ⟨rfl, rfl⟩
      rw [offered_append, ho.1, ← offered_append] at g1
      have hlen : (hist ++ [w.fill pid os op]).length = (hist ++ x.issued w).length := by simp [ho.2]
      rw [hlen] at g1
      exact Nat.lt_of_le_of_lt (g1 (farm_flag hw.gf hf)) (hfarm (farm_flag hw.gf hf))
    cases hst with
    | call hca hat =>
      rename_i op os
      refine att op os (hwf op os rfl) ?_ (bound op os (.inl rfl)) hat
      rintro k iov e1 e2 sh rfl hk hwo
      obtain ⟨hd, g1, g2⟩ := hw.rel.live' hk
      refine noFlush_of (k := k) (e1 := e1) (e2 := e2) hw.rel.ring g2 hwo (hwf _ _ rfl) ?_
      rw [← g1]; exact hca.2.1
    | wakeup hb h1 h2 =>
      rename_i k op os
      intro j op' b hj
      dsimp only at hj ⊢
      by_cases hjk : j = k
      · subst hjk
        rw [upd_same] at hj
        cases hj
        exact ih _ _ _ hb
      · rw [upd_other _ _ hjk] at hj
        exact ih _ _ _ hj
    | resume hb hat =>
      rename_i k op env os
      have hiss : (WOp.resume k env os).issued w = [op] := by unfold WOp.issued; dsimp only; rw [hb]
      obtain ⟨e1, e2, sh, e3, e4⟩ := hw.blk k op true hb
      refine att (op.withEnv env) os (withEnv_wf.2 e2) ?_ (bound _ os (.inr ⟨op, env, hiss, rfl⟩)) hat
      intro k' iov f1 f2 sh' he hk' _
      rcases e4 with ⟨⟨_, _, _, _, rfl⟩, _⟩ | ⟨_, _, _, _, hnf⟩
      · cases he
      · cases op <;> simp only [Op.withEnv] at he <;> cases he
        cases e1
        have e3 : sp.hs k' = .live sh := e3
        rw [hk'] at e3; cases e3
        exact (hnf _ _ _ _ rfl).1
    | interrupt hb ho =>
      rename_i k op e os
      intro j op' b hj
      dsimp only at hj ⊢
      by_cases hjk : j = k
      · subst hjk; rw [upd_same] at hj; cases hj
      · rw [upd_other _ _ hjk] at hj
        obtain ⟨hd, g1, g2⟩ := ih _ _ _ hj
        refine ⟨hd, ?_, g2⟩
        split
        · unfold Sys.discard
          dsimp only
          rw [g1]
          dsimp only
          rw [if_neg (by simpa using hjk)]
        · exact g1
    | kill =>
      rename_i p
      intro j op' b hj
      dsimp only at hj ⊢
      cases e : w.sys.hs j with
      | never =>
        rw [e] at hj
        obtain ⟨hd, g1, g2⟩ := ih _ _ _ hj
        rw [g1] at e; cases e
      | gone b =>
        rw [e] at hj
        obtain ⟨hd, g1, g2⟩ := ih _ _ _ hj
        rw [g1] at e; cases e
      | live hd =>
        rw [e] at hj
        dsimp only at hj
        split at hj
        · cases hj
        · rename_i hp
          obtain ⟨hd', g1, g2⟩ := ih _ _ _ hj
          rw [g1] at e; cases e
          refine ⟨hd, ?_, g2⟩
          unfold Sys.discard
          dsimp only
          rw [g1]
          dsimp only
          rw [if_neg (by simpa using hp)]
  | dies hre hd ih =>
    obtain ⟨sp, hr⟩ := hre.state
    obtain ⟨r, b', hcp⟩ := hd.dies.corpse hr.inv hd.wf
    rw [hcp.eq]
    intro j op' b hj
    unfold WSys.corpse at hj ⊢
    dsimp only at hj ⊢
    split at hj
    · rename_i hd' e
      split at hj
      · cases hj
      · rename_i hp
        obtain ⟨hd2, g1, g2⟩ := ih _ _ _ hj
        refine ⟨hd2, ?_, g2⟩
        unfold Sys.discard
        dsimp only
        rw [g1]
        dsimp only
        rw [if_neg (by simpa using hp)]
    · rename_i hne
      obtain ⟨hd2, g1, g2⟩ := ih _ _ _ hj
      exact absurd g1 (hne hd2)

/-! ## One attempt -/

/-- A read with a buffer in which every message of a ring of `n` bytes fits. -/
def Op.bigRead (n : Nat) : Op → Bool
  | .readv _ buf niov _ => decide (n ≤ buf.length) && decide (0 < niov)
  | _ => false

/-- What one attempt of `op` on handle `k` did. -/
structure Tried (w w' : WSys) (k : Nat) (op : Op) (o : Out) (ops : List BOp) : Prop where
  own : op.handle = k
  other : ∀ j, j ≠ k → w'.sys.hs j = w.sys.hs j
  blk : w'.blk = upd w.blk k (if o = .blocked then some (op, false) else none)
  n : w'.sys.ring.n = w.sys.ring.n
  gf : w'.sys.ring.gflags = w.sys.ring.gflags
  runs : w'.b = w.b.runs ops
  avoid : ∀ x ∈ ops, ∀ i p, i ≠ 2 * k → i ≠ 2 * k + 1 → x.avoids i p
  calm : o = .blocked → ops = [] ∧ w'.sys.ring.unreadMsgs = w.sys.ring.unreadMsgs ∧ w'.sys.wants op = w.sys.wants op
  wr : op.writes = true → o ≠ .blocked → w'.sys.ring.unreadMsgs = w.sys.ring.unreadMsgs ++ w.sys.wants op
  ret : op.writes = true → o ≠ .blocked → w.b.Succeed (BOp.wakes 0) ops → op.envOf.syncOk = true → o = op.success (w.sys.wants op)
  rd : op.writes = false → o.msgs ++ w'.sys.ring.unreadMsgs = w.sys.ring.unreadMsgs
  quiet : op.writes = true → o.msgs = []
  big : op.bigRead w.sys.ring.n = true → o ≠ .blocked → w'.sys.ring.unreadMsgs.length < w.sys.ring.unreadMsgs.length ∨
    (∃ hd os, w.sys.hs k = .live hd ∧ hd.flags.has SHR_NONBLOCK = true ∧ ops = [.force (2 * k) false os])
  keep : ∀ hd, w.sys.hs k = .live hd → op.writes = false → ∃ hd', w'.sys.hs k = .live hd' ∧ hd'.flags = hd.flags

theorem wants_eq {s : Sys} {sp : Spec} (hr : Rel s sp) {op : Op} {sh : SHandle} (hk : sp.hs op.handle = .live sh) (hw : op.writes = true) :
    s.wants op = op.wanted sh := by
  obtain ⟨hd, h1, h2⟩ := hr.live' hk
  cases op with
  | writev => rfl
  | flush k' wait env => unfold Sys.wants Sys.cached Op.wanted; simp only [Op.handle] at h1 ⊢; rw [h1]; exact h2.cache.msgs
  | close k' env => unfold Sys.wants Sys.cached Op.wanted; simp only [Op.handle] at h1 ⊢; rw [h1]; exact h2.cache.msgs
  | readv | «open» | stat | farmStat | appdata => cases hw

theorem wanted_ne {sp : Spec} {op : Op} {sh : SHandle} (hs : Suspended sp sh op) (hd : SDirect sh op) (hw : op.writes = true) : op.wanted sh ≠ [] := by
  rcases hs with ⟨⟨_, _, _, _, rfl⟩, _⟩ | ⟨_, _, _, _, h⟩
  · cases hw
  cases op with
  | writev k iov e1 e2 => exact (h _ _ _ _ rfl).2.1
  | flush k' wait env => exact hd.1
  | close k' env => exact hd.1
  | readv | «open» | stat | farmStat | appdata => cases hw

theorem tried {a : InitArgs} {pid : Nat → Nat} {hist : List Op} {w w' : WSys} {sp : Spec} (hrep : Repr a pid hist w sp) (hfm : sp.farm = false) {op : Op} {os : WOs}
    {o : Out} {ops : List BOp} (hwf : op.WF a.appsize) {sh : SHandle} (hk : sp.hs op.handle = .live sh)
    (hop : (op.writes = true ∧ Suspended sp sh op ∧ SDirect sh op) ∨ ((∃ k buf niov env, op = .readv k buf niov env) ∧ sh.flags.has SHR_RDONLY = true))
    (hl : op.envOf.lockOk = true) (hat : w.attempt pid op os = some (w', o, ops)) : Tried w w' op.handle op o ops := by
  have hw := hrep.inv
  have hlog : sp.farm = true → (sp.step (w.fill pid os op)).1.log.length < W := fun e => by rw [hfm] at e; cases e
  have hwf' : (w.fill pid os op).WF sp.app.length := by rw [hw.app]; exact fill_wf.2 hwf
  obtain ⟨s', hst, hrel'⟩ := step_refine hw.rel (w.fill pid os op) hwf' hlog
  have hor : op.writes = true ∨ ∃ k buf niov env, op = .readv k buf niov env := by
    rcases hop with ⟨h, _⟩ | ⟨h, _⟩
    · exact .inl h
    · exact .inr h
  have hno : ∀ k flags env, op ≠ .open k flags env := by
    rintro k flags env rfl
    rcases hor with h | ⟨_, _, _, _, h⟩ <;> cases h
  obtain ⟨fe1, fe2, fe3⟩ := fill_env (w := w) (pid := pid) (os := os) hor
  unfold WSys.attempt at hat
  rw [hst] at hat
  simp only [Option.some.injEq, Prod.mk.injEq] at hat
  obtain ⟨rfl, rfl, rfl⟩ := hat
  generalize hfo : w.fill pid os op = fop at *
  have fh : fop.handle = op.handle := by rw [← hfo]; exact fill_handle _ _ _ _
  have fw : fop.writes = op.writes := by rw [← hfo]; exact fill_writes _ _ _ _
  have fwant : fop.wanted sh = op.wanted sh := by rw [← hfo]; exact fill_wanted _ _ _ _ _
  have hk' : sp.hs fop.handle = .live sh := by rw [fh]; exact hk
  have hu' := hrel'.ring.unreadMsgs
  have hu := hw.rel.ring.unreadMsgs
  have hnf : ∀ k iov e1 e2 sh, fop = .writev k iov e1 e2 → sp.hs k = .live sh → sh.flags.has SHR_WRONLY = true → NoFlush sp sh iov := by
    intro k iov e1 e2 sh' he hk2 _
    rcases hop with ⟨h1, h2, h3⟩ | ⟨⟨_, _, _, _, rfl⟩, _⟩
    · have h2 := susp_fill w pid os h2
      rw [hfo] at h2
      rcases h2 with ⟨⟨_, _, _, _, e⟩, _⟩ | ⟨_, _, _, _, h⟩
      · rw [e] at he; cases he
      · have := (h _ _ _ _ he).1
        have e : fop.handle = k := by rw [he]; rfl
        rw [e, hk2] at hk'
        cases hk'
        exact this
    · rw [he] at hfo; cases hfo
  have hsent := sent_step hw.rel fop hwf' hnf hlog
  -- the two kinds
  have kind : (op.writes = true ∧ (
      (¬ Fits sp.cap sp.maxm sp.unread (op.wanted sh) ∧ (sp.step fop).2 = .blocked ∧ (sp.step fop).1.unread = sp.unread ∧
        ∃ sh', (sp.step fop).1.hs op.handle = .live sh' ∧ sh'.pend = sh.pend) ∨
      (Fits sp.cap sp.maxm sp.unread (op.wanted sh) ∧ (sp.step fop).1.unread = sp.unread ++ op.wanted sh ∧ (sp.step fop).2 ≠ .blocked ∧
        (fop.envOf.wakeOk = true → fop.envOf.syncOk = true → (sp.step fop).2 = op.success (op.wanted sh))))) ∨
      ((∃ k buf niov env, op = .readv k buf niov env) ∧ sh.flags.has SHR_RDONLY = true) := by
    rcases hop with ⟨h1, h2, h3⟩ | h
    · refine .inl ⟨h1, ?_⟩
      have h2 := susp_fill w pid os h2
      have h3 := (direct_fill w pid os).2 h3
      rw [hfo] at h2 h3
      have := retry_spec hk' h2 h3 (fw.trans h1) hw.rel.ring.fle (fe1.trans hl) fe2
      rw [fwant, fh] at this
      have hsuc : fop.success (op.wanted sh) = op.success (op.wanted sh) := by rw [← hfo]; exact success_fill _ _ _ _ _
      rw [hsuc] at this
      exact this
    · exact .inr h
  have hnr : op.writes = true → ¬ ∃ k buf niov env, op = .readv k buf niov env := by
    rintro h ⟨_, _, _, _, rfl⟩; cases h
  have flow := step_flow fop hw.rel
  refine { own := rfl, other := ?_, blk := rfl, n := ?_, gf := ?_, runs := rfl, avoid := ?_, calm := ?_, wr := ?_, ret := ?_, rd := ?_, quiet := ?_, big := ?_, keep := ?_ }
  · intro j hj
    exact sys_step_other hst (by rw [fh]; exact fun e => hj e.symm)
  · rw [hrel'.ring.n, hw.rel.ring.n]; exact hsent.le.cap
  · rw [hrel'.ring.gf, hw.rel.ring.gf]; exact hsent.le.gf
  · have := bops_own (w := w) (pid := pid) (os := os) (o := (sp.step fop).2) (op := fop) (by rw [← hfo]; exact fill_open hno)
    rw [fh] at this
    exact this
  · intro hb
    refine ⟨?_, ?_, ?_⟩
    · rw [hb] at hst ⊢
      refine bops_blocked hw.rel (by rw [← hfo]; exact fill_open hno) ?_ hst
      rintro k wait env he
      rcases hop with ⟨h1, h2, h3⟩ | ⟨⟨_, _, _, _, rfl⟩, _⟩
      · have e : op.handle = k := by rw [← fh, he]; rfl
        rw [e] at hk
        refine ⟨sh, hk, ?_⟩
        rcases h2 with ⟨h2, _⟩ | ⟨_, _, h2, _⟩
        · exact absurd h2 (hnr h1)
        · exact h2
      · rw [he] at hfo; cases hfo
    · dsimp only
      rw [hu', hu]
      rcases kind with ⟨_, ⟨_, _, h, _⟩ | ⟨_, _, h, _⟩⟩ | ⟨⟨k, buf, niov, env, rfl⟩, hro⟩
      · exact h
      · exact absurd hb h
      · simp only [WSys.fill] at hfo
        subst hfo
        obtain ⟨g1, _⟩ := hsent.rd _ _ _ _ rfl
        have hk : sp.hs k = .live sh := hk
        have := (readv_facts sp sh buf niov { env with waitRc := none }).2.2.2.2
        simp only [Spec.step, hk, hro] at hb ⊢
        have := (this (by simpa using hb)).1
        simp only [Bool.true_eq_false, if_false]
        rw [this]; rfl
    · rcases kind with ⟨h1, ⟨_, _, _, sh', h2, h3⟩ | ⟨_, _, h, _⟩⟩ | ⟨⟨k, buf, niov, env, rfl⟩, hro⟩
      · dsimp only
        rw [wants_eq hrel' h2 h1, wants_eq hw.rel hk h1]
        cases op <;> first | rfl | exact h3 | cases h1
      · exact absurd hb h
      · have hrd := hsent.blkR k buf niov { env with waitRc := none } (by rw [← hfo]; rfl) hb
        obtain ⟨sh', e1, e2, _⟩ := hrd
        obtain ⟨hd1, a1, a2⟩ := hw.rel.live' hk
        obtain ⟨hd2, b1, b2⟩ := hrel'.live' e1
        have b1 : s'.hs k = .live hd2 := b1
        have a1 : w.sys.hs k = .live hd1 := a1
        have c1 : sh.pend = [] := a2.pend_nil (by have := a2.mode; rw [hro] at this; simp at this; rw [this]; rfl)
        have c2 : sh'.pend = [] := b2.pend_nil (by have := b2.mode; rw [e2] at this; simp at this; rw [this]; rfl)
        simp only [Sys.wants, Sys.cached, Op.handle, a1, b1]
        rw [a2.cache.msgs, b2.cache.msgs, c1, c2]
  · intro h1 hb
    rcases kind with ⟨_, ⟨_, h, _⟩ | ⟨_, h, _⟩⟩ | ⟨h, _⟩
    · exact absurd h hb
    · dsimp only; rw [hu', hu, h, wants_eq hw.rel hk h1]
    · exact absurd h (hnr h1)
  · intro h1 hb hsucc hsync
    rcases kind with ⟨_, ⟨_, h, _⟩ | ⟨_, h, _, hsuc⟩⟩ | ⟨h, _⟩
    · exact absurd h hb
    · rw [wants_eq hw.rel hk h1]
      refine hsuc ?_ (fe3.trans hsync)
      have hdir : SDirect sh op ∧ Suspended sp sh op := by
        rcases hop with ⟨_, h2, h3⟩ | ⟨h, _⟩
        · exact ⟨h3, h2⟩
        · exact absurd h (hnr h1)
      have hne := wanted_ne hdir.2 hdir.1 h1
      have hwake : (w.sys.signal fop).wake = true := by
        cases hwk : (w.sys.signal fop).wake
        · exfalso
          have := (hsent.wr (by rintro k buf niov env e; rw [e] at fw; rw [← fw] at h1; cases h1)).1 hwk
          obtain ⟨t1, _, t3⟩ := this
          have : (sp.step fop).1.unread = sp.unread := by unfold Spec.unread Spec.log; rw [t1, t3]
          rw [this] at h
          have := congrArg List.length h
          simp only [List.length_append] at this
          exact hne (List.length_eq_zero_iff.1 (by omega))
        · rfl
      rcases hdir.2 with ⟨h2, _⟩ | ⟨_, _, hcw, _⟩
      · exact absurd h2 (hnr h1)
      cases op with
      | writev k iov e1 e2 =>
        simp only [WSys.fill] at hfo
        subst hfo
        unfold WSys.bops at hsucc
        dsimp only at hsucc
        rw [if_pos hwake] at hsucc
        exact hsucc.1 (by simp [BOp.wakes])
      | flush k wait env =>
        have hpre := fun env os => flushPre_nil hw.rel (pid := pid) hk hcw wait env os
        simp only [WSys.fill] at hfo
        subst hfo
        unfold WSys.bops at hsucc
        dsimp only [Op.handle] at hsucc hpre
        rw [if_pos hwake, hpre] at hsucc
        have := hsucc.1 (by simp [BOp.wakes])
        simp only [Op.envOf, hpre]
        exact this
      | close k env =>
        simp only [WSys.fill] at hfo
        subst hfo
        unfold WSys.bops at hsucc
        dsimp only at hsucc
        rw [if_pos hwake] at hsucc
        exact hsucc.1 (by simp [BOp.wakes])
      | _ => cases h1
    · exact absurd h (hnr h1)
  · intro h1
    rcases hor with h | ⟨k, buf, niov, env, rfl⟩
    · rw [h] at h1; cases h1
    obtain ⟨new, lost, hf⟩ := flow
    have fl := hf.flow hfm
    simp only [WSys.fill] at hfo
    obtain ⟨g1, _, g3, _⟩ := hsent.rd k buf niov _ hfo.symm
    have hnew : new = [] := by
      have := fl.tlog
      rw [g1] at this
      have := congrArg List.length this
      simp only [List.length_append] at this
      exact List.length_eq_zero_iff.1 (by omega)
    have hlost : lost = [] := by
      obtain ⟨cnt, hc, _⟩ := hf.count (by rintro _ _ _ e; rw [← hfo] at e; cases e)
      have h1 := hc.md
      have h2 : (sp.step fop).1.st.md = sp.st.md := by
        rw [← hfo]
        unfold Spec.step Spec.readv
        dsimp only
        repeat' split
        all_goals rfl
      exact List.length_eq_zero_iff.1 (by omega)
    have := fl.queue
    rw [hnew, hlost] at this
    dsimp only
    rw [hu', hu]
    simpa using this.symm
  · intro h1
    have wout : ∀ x : Spec.WRes, x.out.msgs = [] := by intro x; cases x <;> rfl
    rcases kind with ⟨_, ⟨_, h, _⟩ | _⟩ | ⟨h, _⟩
    · rw [h]; rfl
    · clear hst hsent
      rw [← hfo]
      cases op with
      | readv | «open» | stat | farmStat | appdata => cases h1
      | writev k iov e1 e2 =>
        unfold WSys.fill Spec.step
        dsimp only
        repeat' split
        all_goals first | rfl | exact wout _
      | flush k wait env =>
        unfold WSys.fill Spec.step
        dsimp only
        repeat' split
        all_goals first | rfl | exact wout _
      | close k env =>
        unfold WSys.fill Spec.step
        dsimp only
        repeat' split
        all_goals rfl
    · exact absurd h (hnr h1)
  · intro hbig hb
    rcases hop with ⟨h1, _⟩ | ⟨⟨k, buf, niov, env, rfl⟩, hro⟩
    · cases op <;> first | cases hbig; done | cases h1
    · simp only [Op.bigRead, Bool.and_eq_true, decide_eq_true_eq] at hbig
      have hk : sp.hs k = .live sh := hk
      simp only [WSys.fill] at hfo
      have hrs := read_spec hw.rel.ring hk hro hfm (env := { env with waitRc := none }) hl rfl hbig.2 (by rw [← hw.rel.ring.n]; exact hbig.1)
      rw [hfo] at hrs
      rcases hrs with ⟨_, _, h, _⟩ | ⟨hU, hnb, h, hU'⟩ | ⟨_, h⟩
      · exact absurd h hb
      · right
        obtain ⟨hd, a1, a2⟩ := hw.rel.live' hk
        refine ⟨hd, os.o2, a1, by rw [a2.flags]; exact hnb, ?_⟩
        have hdry := hsent.dry k buf niov _ sh hfo.symm hk (by unfold Spec.readable; rw [hfm]; exact hU)
        have hs' : ∃ sh', (sp.step fop).1.hs k = .live sh' ∧ sh'.flags = sh.flags := by
          rw [← hfo]
          simp only [Spec.step, hk, hro, Bool.true_eq_false, if_false]
          exact ⟨_, upd_same _ _ _, (readv_facts _ _ _ _ _).2.2.2.1⟩
        obtain ⟨sh', e1, e2⟩ := hs'
        have hfr := hsent.frc k buf niov _ sh' hfo.symm e1 (by rw [e2]; exact hnb)
        have hforce : (w.sys.signal fop).force = some false := by
          cases hx : (w.sys.signal fop).force with
          | none =>
            rw [hx] at hfr
            obtain ⟨_, _, h3 | h3⟩ := hfr
            · rw [h] at h3; cases h3
            · rw [h] at h3
              injection h3 with h3
              cases h3
          | some f =>
            rw [hx] at hfr
            dsimp only at hfr
            have hro' : (sp.step fop).1.readable sh' = [] := by
              unfold Spec.readable
              have : (sp.step fop).1.farm = false := by unfold Spec.farm; rw [hsent.le.gf]; exact hfm
              rw [this, hU', hU]; rfl
            rw [hro'] at hfr
            rw [hfr]; rfl
        show w.bops pid os (sp.step fop).2 fop = _
        rw [← hfo] at hdry hforce ⊢
        unfold WSys.bops
        dsimp only
        rw [hdry, hforce]
        rfl
      · left
        dsimp only
        rw [hu', hu]
        exact h
  · intro hd hhd h1
    rcases hor with h | ⟨k, buf, niov, env, rfl⟩
    · rw [h] at h1; cases h1
    have hk : sp.hs k = .live sh := hk
    have hro : sh.flags.has SHR_RDONLY = true := by
      rcases hop with ⟨h, _⟩ | ⟨_, h⟩
      · cases h
      · exact h
    have hs' : ∃ sh', (sp.step fop).1.hs k = .live sh' ∧ sh'.flags = sh.flags := by
      rw [← hfo]
      simp only [WSys.fill, Spec.step, hk, hro, Bool.true_eq_false, if_false]
      exact ⟨_, upd_same _ _ _, (readv_facts _ _ _ _ _).2.2.2.1⟩
    obtain ⟨sh', e1, e2⟩ := hs'
    obtain ⟨hd', b1, b2⟩ := hrel'.live' e1
    obtain ⟨shx, c1, c2⟩ := hw.rel.live hhd
    have c1 : sp.hs k = .live shx := c1
    rw [hk] at c1; cases c1
    exact ⟨hd', b1, by rw [b2.flags, e2, c2.flags]⟩

end Shr
