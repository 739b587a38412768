import Verif.Proof.WakeS
/-! # Ring and block/wake together, part 3: the invariant -/
namespace Shr

/-! ## Handles through one call -/

theorem flush_pos (sp : Spec) (k : Nat) (sh : SHandle) (wait : Bool) (env : Env) : (sp.flush k sh wait env).2.1.pos = sh.pos := by
  unfold Spec.flush
  dsimp only
  repeat' split
  all_goals rfl

theorem writev_sh (sp : Spec) (k : Nat) (sh : SHandle) (iov : List Msg) (e1 e2 : Env) :
    (sp.writev k sh iov e1 e2).2.1.flags = sh.flags ∧ (sp.writev k sh iov e1 e2).2.1.canWait = sh.canWait ∧
    (sp.writev k sh iov e1 e2).2.1.pos = sh.pos := by
  unfold Spec.writev
  dsimp only
  repeat' split
  all_goals exact ⟨rfl, rfl, rfl⟩

theorem readv_sh (sp : Spec) (sh : SHandle) (buf : List Byte) (niov : Nat) (env : Env) :
    (sp.readv sh buf niov env).2.1.flags = sh.flags ∧ (sp.readv sh buf niov env).2.1.canWait = sh.canWait := by
  unfold Spec.readv Spec.catchUp
  dsimp only
  repeat' split
  all_goals exact ⟨rfl, rfl⟩

/-- A handle that is open after a call on it (other than `shr_open`) was open before; what changed. -/
structure Kept (sp : Spec) (op : Op) (sh sh' : SHandle) : Prop where
  flags : sh'.flags = sh.flags
  pos : (∀ k buf niov env, op ≠ .readv k buf niov env) → sh'.pos = sh.pos
  can : (∀ k wait env, op ≠ .flush k wait env) → sh'.canWait = sh.canWait
  flush : ∀ k wait env, op = .flush k wait env → (sh.flags.has SHR_WRONLY = false ∧ sh' = sh) ∨
    (sh.flags.has SHR_WRONLY = true ∧ sh' = (sp.flush k sh wait env).2.1)

theorem Kept.refl {sp : Spec} {op : Op} {sh : SHandle} (h : ∀ k wait env, op = .flush k wait env → sh.flags.has SHR_WRONLY = false) :
    Kept sp op sh sh := ⟨rfl, fun _ => rfl, fun _ => rfl, fun k wait env e => .inl ⟨h k wait env e, rfl⟩⟩

theorem step_kept (sp : Spec) (op : Op) (hno : ∀ k flags env, op ≠ .open k flags env) (sh' : SHandle)
    (h : (sp.step op).1.hs op.handle = .live sh') : ∃ sh, sp.hs op.handle = .live sh ∧ Kept sp op sh sh' := by
  cases op with
  | «open» k flags env => exact absurd rfl (hno k flags env)
  | writev k iov e1 e2 =>
    unfold Spec.step at h
    simp only [Op.handle] at h ⊢
    cases hk : sp.hs k with
    | live sh =>
      refine ⟨sh, rfl, ?_⟩
      simp only [hk] at h
      cases hw : sh.flags.has SHR_WRONLY
      · simp only [hw, if_true, hk] at h; cases h; exact .refl fun _ _ _ e => by cases e
      · simp only [hw, Bool.true_eq_false, if_false, upd_same] at h; cases h
        obtain ⟨f1, f2, f3⟩ := writev_sh sp k sh iov e1 e2
        exact ⟨f1, fun _ => f3, fun _ => f2, fun _ _ _ e => by cases e⟩
    | never => simp only [hk] at h; cases h
    | gone b => simp only [hk] at h; cases h
  | readv k buf niov env =>
    unfold Spec.step at h
    simp only [Op.handle] at h ⊢
    cases hk : sp.hs k with
    | live sh =>
      refine ⟨sh, rfl, ?_⟩
      simp only [hk] at h
      cases hw : sh.flags.has SHR_RDONLY
      · simp only [hw, if_true, hk] at h; cases h; exact .refl fun _ _ _ e => by cases e
      · simp only [hw, Bool.true_eq_false, if_false, upd_same] at h; cases h
        obtain ⟨f1, f2⟩ := readv_sh sp sh buf niov env
        exact ⟨f1, fun h => absurd rfl (h k buf niov env), fun _ => f2, fun _ _ _ e => by cases e⟩
    | never => simp only [hk] at h; cases h
    | gone b => simp only [hk] at h; cases h
  | flush k wait env =>
    unfold Spec.step at h
    simp only [Op.handle] at h ⊢
    cases hk : sp.hs k with
    | live sh =>
      refine ⟨sh, rfl, ?_⟩
      simp only [hk] at h
      cases hw : sh.flags.has SHR_WRONLY
      · simp only [hw, if_true, hk] at h; cases h; exact .refl fun _ _ _ _ => hw
      · simp only [hw, Bool.true_eq_false, if_false, upd_same] at h; cases h
        refine ⟨(flush_sh sp k sh wait env).1, fun _ => flush_pos sp k sh wait env, fun h => absurd rfl (h k wait env), ?_⟩
        rintro k' wait' env' ⟨⟩
        exact .inr ⟨hw, rfl⟩
    | never => simp only [hk] at h; cases h
    | gone b => simp only [hk] at h; cases h
  | close k env =>
    unfold Spec.step at h
    simp only [Op.handle] at h ⊢
    cases hk : sp.hs k with
    | live sh =>
      refine ⟨sh, rfl, ?_⟩
      simp only [hk] at h
      have hhs := flush_hs sp k sh false env
      generalize sp.flush k sh false env = X at *
      obtain ⟨sp1, sh1, w⟩ := X
      cases w with
      | wait => dsimp only at h hhs; rw [hhs, hk] at h; cases h; exact .refl fun _ _ _ e => by cases e
      | ret rc => dsimp only at h; rw [upd_same] at h; cases h
    | never => simp only [hk] at h; cases h
    | gone b => simp only [hk] at h; cases h
  | stat k reset env =>
    unfold Spec.step at h
    simp only [Op.handle] at h ⊢
    cases hk : sp.hs k with
    | live sh =>
      refine ⟨sh, rfl, ?_⟩
      simp only [hk] at h
      have : sh' = sh := by
        split at h
        · rw [hk] at h; cases h; rfl
        · cases reset <;> (dsimp only at h; rw [hk] at h; cases h; rfl)
      subst this; exact .refl fun _ _ _ e => by cases e
    | never => simp only [hk] at h; cases h
    | gone b => simp only [hk] at h; cases h
  | farmStat k reset =>
    unfold Spec.step at h
    simp only [Op.handle] at h ⊢
    cases hk : sp.hs k with
    | live sh =>
      refine ⟨sh, rfl, ?_⟩
      simp only [hk] at h
      cases hw : sh.flags.has SHR_RDONLY
      · simp only [hw, if_true, hk] at h; cases h; exact .refl fun _ _ _ e => by cases e
      · simp only [hw, Bool.true_eq_false, if_false, upd_same] at h; cases h
        refine ⟨?_, fun _ => ?_, fun _ => ?_, fun _ _ _ e => by cases e⟩ <;> split <;> rfl
    | never => simp only [hk] at h; cases h
    | gone b => simp only [hk] at h; cases h
  | appdata k get set sz env =>
    unfold Spec.step at h
    simp only [Op.handle] at h ⊢
    cases hk : sp.hs k with
    | live sh =>
      refine ⟨sh, rfl, ?_⟩
      simp only [hk] at h
      have : (sp.appdata get set sz env).1.hs = sp.hs := by
        unfold Spec.appdata
        dsimp only
        repeat' split
        all_goals rfl
      rw [this, hk] at h; cases h; exact .refl fun _ _ _ e => by cases e
    | never => simp only [hk] at h; cases h
    | gone b => simp only [hk] at h; cases h

/-- Who calls `bw_wake`. -/
theorem signal_wake {s : Sys} {sp : Spec} (hr : Rel s sp) {op : Op} (h : (s.signal op).wake = true) :
    ∃ sh, sp.hs op.handle = .live sh ∧
      ((∃ k buf niov env, op = .readv k buf niov env) ∧ sh.flags.has SHR_RDONLY = true ∨ op.writes = true ∧ sh.flags.has SHR_WRONLY = true) := by
  cases op with
  | writev k iov e1 e2 =>
    unfold Sys.signal at h; dsimp only at h
    split at h
    · rename_i hd e
      obtain ⟨sh, hk, hh⟩ := hr.live e
      refine ⟨sh, hk, .inr ⟨rfl, ?_⟩⟩
      cases hw : sh.flags.has SHR_WRONLY
      · rw [if_pos (by rw [hh.flags]; exact hw)] at h; cases h
      · rfl
    · cases h
  | readv k buf niov env =>
    unfold Sys.signal at h; dsimp only at h
    split at h
    · rename_i hd e
      obtain ⟨sh, hk, hh⟩ := hr.live e
      refine ⟨sh, hk, .inl ⟨⟨k, buf, niov, env, rfl⟩, ?_⟩⟩
      cases hw : sh.flags.has SHR_RDONLY
      · rw [if_pos (by rw [hh.flags]; exact hw)] at h; cases h
      · rfl
    · cases h
  | flush k wait env =>
    unfold Sys.signal at h; dsimp only at h
    split at h
    · rename_i hd e
      obtain ⟨sh, hk, hh⟩ := hr.live e
      refine ⟨sh, hk, .inr ⟨rfl, ?_⟩⟩
      cases hw : sh.flags.has SHR_WRONLY
      · rw [if_pos (by rw [hh.flags]; exact hw)] at h; cases h
      · rfl
    · cases h
  | close k env =>
    unfold Sys.signal at h; dsimp only at h
    split at h
    · rename_i hd e
      obtain ⟨sh, hk, hh⟩ := hr.live e
      refine ⟨sh, hk, .inr ⟨rfl, ?_⟩⟩
      by_cases hp : sh.pend = []
      · have : exec (shr_close hd env) s.ring = .ok (.ret 0 false, s.ring) := by
          unfold shr_close
          rw [if_neg (by simp [hh.cache.n_zero.mpr hp])]
          rfl
        rw [this] at h; cases h
      · rw [has_WRONLY]; exact (hh.buffered hp).2
    · cases h
  | «open» => cases h
  | stat => cases h
  | farmStat => cases h
  | appdata => cases h

/-! ## The invariant -/

/-- A suspended call, on an open handle: a read on a blocking reader, or a write, flush or close on a writer that can wait. -/
def Suspended (sp : Spec) (sh : SHandle) (op : Op) : Prop :=
  ((∃ k buf niov env, op = .readv k buf niov env) ∧ sh.flags.has SHR_RDONLY = true ∧ sh.flags.has SHR_NONBLOCK = false) ∨
  (op.writes = true ∧ sh.flags.has SHR_WRONLY = true ∧ sh.canWait = true ∧ sp.drop = false ∧
    ∀ k iov e1 e2, op = .writev k iov e1 e2 → NoFlush sp sh iov ∧ Legal sp.cap sp.maxm iov)

/-- Invariant of the handles' block/wake state and of the suspended calls, whatever the operating system does. -/
structure TInv (a : InitArgs) (pid : Nat → Nat) (w : WSys) (sp : Spec) : Prop where
  rel : Rel w.sys sp
  cap : sp.cap = a.dataSz
  maxm : sp.maxm = a.max_msgs
  gf : sp.gflags = a.gflags
  app : sp.app.length = a.appsize
  canw : ∀ k sh, sp.hs k = .live sh → sh.flags.has SHR_WRONLY = true → sh.flags.has SHR_NONBLOCK = false → sp.drop = false → sh.canWait = true
  rdl : ∀ k sh, sp.hs k = .live sh → sh.flags.has SHR_RDONLY = true →
    (∃ t, w.b.ts (2 * k) = some (.wait 0 (pid k) t)) ∧ ∃ v, w.b.ts (2 * k + 1) = some (.wake 1 (pid k) v)
  wrl : ∀ k sh, sp.hs k = .live sh → sh.flags.has SHR_WRONLY = true →
    (∃ v, w.b.ts (2 * k) = some (.wake 0 (pid k) v)) ∧ (sh.canWait = true → ∃ t, w.b.ts (2 * k + 1) = some (.wait 1 (pid k) t)) ∧
    (sh.canWait = false → w.b.ts (2 * k + 1) = none)
  blk : ∀ k op b, w.blk k = some (op, b) → op.handle = k ∧ op.WF a.appsize ∧ ∃ sh, sp.hs k = .live sh ∧ Suspended sp sh op

/-- If the reader `k` is suspended (or, if `P`, also if it is non-blocking) and has something to read, it has a datagram pending. -/
def J1 (w : WSys) (sp : Spec) (k : Nat) (P : Prop) : Prop :=
  ∀ sh, sp.hs k = .live sh → sh.flags.has SHR_RDONLY = true → (P ∧ sh.flags.has SHR_NONBLOCK = true ∨ ∃ op, w.blk k = some (op, false)) →
    sp.readable sh ≠ [] → 1 ≤ w.b.pending (2 * k)

/-- If the writer `k` is suspended and there is space for its messages, it has a datagram pending. -/
def J2 (w : WSys) (sp : Spec) (k : Nat) : Prop :=
  ∀ op sh, w.blk k = some (op, false) → op.writes = true → sp.hs k = .live sh → Fits sp.cap sp.maxm sp.unread (op.wanted sh) →
    1 ≤ w.b.pending (2 * k + 1)

abbrev Keeps (w : WSys) (sp : Spec) (w' : WSys) (sp' : Spec) : Prop :=
  (∀ k P, J1 w sp k P → J1 w' sp' k P) ∧ ∀ k, J2 w sp k → J2 w' sp' k

theorem runs_wake {b : BSys} (h : BInv b) {pre post : List BOp} {i hi p j q : Nat} {os : Os} {v : WakeT} {t : WaitT}
    (hc : b.CleanRun (pre ++ .wake i os :: post)) (hs : ((b.runs pre).step (.wake i os)).2 = true)
    (hv : b.ts i = some (.wake hi p v)) (ht : b.ts j = some (.wait hi q t)) (h1 : ∀ op ∈ pre, op.avoids i p) (h2 : ∀ op ∈ pre, op.avoids j q)
    (h3 : ∀ op ∈ post, op.avoids j q) : 1 ≤ (b.runs (pre ++ .wake i os :: post)).pending j := by
  rw [cleanRun_append] at hc
  rw [runs_append]
  obtain ⟨v', e1⟩ := runs_mode hv h1
  obtain ⟨e2, _, _⟩ := runs_pending h hc.1 ht h2
  have hre := h.runs hc.1
  have hw := wake_pending hre e1 hc.2.1 hs e2
  have hre2 : BInv ((b.runs pre).step (.wake i os)).1 := hre.step _ hc.2.1
  obtain ⟨e3, _, _⟩ := runs_pending (ops := [BOp.wake i os]) hre ⟨hc.2.1, trivial⟩ e2 (by simp [BOp.avoids])
  have := (runs_pending hre2 hc.2.2 e3 h3).2.1
  exact Nat.le_trans hw this

/-! ## One attempt of a call -/

theorem fill_handle (w : WSys) (pid : Nat → Nat) (os : WOs) (op : Op) : (w.fill pid os op).handle = op.handle := by
  cases op <;> rfl
theorem fill_wf {w : WSys} {pid : Nat → Nat} {os : WOs} {op : Op} {n : Nat} : (w.fill pid os op).WF n ↔ op.WF n := by
  cases op <;> exact Iff.rfl
theorem fill_writes (w : WSys) (pid : Nat → Nat) (os : WOs) (op : Op) : (w.fill pid os op).writes = op.writes := by
  cases op <;> rfl
theorem fill_wanted (w : WSys) (pid : Nat → Nat) (os : WOs) (op : Op) (sh : SHandle) : (w.fill pid os op).wanted sh = op.wanted sh := by
  cases op <;> rfl
theorem fill_readv {w : WSys} {pid : Nat → Nat} {os : WOs} {op : Op} :
    (∃ k buf niov env, w.fill pid os op = .readv k buf niov env) ↔ ∃ k buf niov env, op = .readv k buf niov env := by
  cases op <;> simp [WSys.fill]
theorem fill_open {w : WSys} {pid : Nat → Nat} {os : WOs} {op : Op} (h : ∀ k flags env, op ≠ .open k flags env) :
    ∀ k flags env, w.fill pid os op ≠ .open k flags env := by
  cases op <;> simp [WSys.fill] at h ⊢
theorem offered_fill (w : WSys) (pid : Nat → Nat) (os : WOs) (op : Op) : offered [w.fill pid os op] = offered [op] := by
  cases op <;> rfl

/-- The block/wake calls of an attempt concern only the caller's own `bw_t`s. -/
theorem bops_own {w : WSys} {pid : Nat → Nat} {os : WOs} {o : Out} {op : Op} (hno : ∀ k flags env, op ≠ .open k flags env) :
    ∀ x ∈ w.bops pid os o op, ∀ i p, i ≠ 2 * op.handle → i ≠ 2 * op.handle + 1 → x.avoids i p := by
  intro x hx i p h1 h2
  cases op with
  | «open» k flags env => exact absurd rfl (hno k flags env)
  | writev k iov e1 e2 =>
    unfold WSys.bops at hx; dsimp only at hx
    split at hx
    · simp only [List.mem_singleton] at hx; subst hx; trivial
    · cases hx
  | readv k buf niov env =>
    unfold WSys.bops at hx; dsimp only at hx
    rcases List.mem_append.1 hx with hx | hx
    · split at hx
      · simp only [List.mem_singleton] at hx; subst hx; trivial
      · cases hx
    · split at hx
      · simp only [List.mem_singleton] at hx; subst hx; exact fun h => h1 h.symm
      · cases hx
  | flush k wait env =>
    unfold WSys.bops WSys.flushPre at hx; dsimp only at hx
    rcases List.mem_append.1 hx with hx | hx
    · split at hx
      · simp only [List.mem_singleton] at hx; subst hx; exact fun h => h2 h.symm
      · cases hx
    · split at hx
      · simp only [List.mem_singleton] at hx; subst hx; trivial
      · cases hx
  | close k env =>
    unfold WSys.bops at hx; dsimp only at hx
    rcases List.mem_append.1 hx with hx | hx
    · split at hx
      · simp only [List.mem_singleton] at hx; subst hx; trivial
      · cases hx
    · split at hx
      · simp only [List.mem_cons, List.not_mem_nil, or_false] at hx
        rcases hx with rfl | rfl
        · exact fun h => h1 h.symm
        · exact fun h => h2 h.symm
      · cases hx
  | stat => cases hx
  | farmStat => cases hx
  | appdata => cases hx

/-- Where `bw_wake` is among the block/wake calls of a write. -/
theorem bops_wake_w {w : WSys} {pid : Nat → Nat} {os : WOs} {o : Out} {op : Op} (hw : op.writes = true) (hs : (w.sys.signal op).wake = true) :
    ∃ pre post, w.bops pid os o op = pre ++ .wake (2 * op.handle) os.o1 :: post ∧
      (∀ x ∈ pre, ∀ i p, i ≠ 2 * op.handle + 1 → x.avoids i p) ∧
      (∀ x ∈ post, ∀ i p, i ≠ 2 * op.handle → i ≠ 2 * op.handle + 1 → x.avoids i p) ∧
      (∀ x ∈ pre ++ post, ∀ j os, x ≠ .wake j os) := by
  cases op with
  | «open» => cases hw
  | readv => cases hw
  | stat => cases hw
  | farmStat => cases hw
  | appdata => cases hw
  | writev k iov e1 e2 =>
    refine ⟨[], [], ?_, by simp, by simp, by simp⟩
    unfold WSys.bops; dsimp only; rw [if_pos hs]; rfl
  | flush k wait env =>
    refine ⟨w.flushPre pid k wait env os, [], ?_, ?_, by simp, ?_⟩
    · unfold WSys.bops; dsimp only; rw [if_pos hs]; rfl
    · intro x hx i p hi
      unfold WSys.flushPre at hx
      split at hx
      · simp only [List.mem_singleton] at hx; subst hx; exact fun h => hi h.symm
      · cases hx
    · intro x hx
      unfold WSys.flushPre at hx
      split at hx
      · simp only [List.append_nil, List.mem_singleton] at hx; subst hx; intro _ _ e; cases e
      · cases hx
  | close k env =>
    refine ⟨[], if o = .closed ∧ os.lock2 = true then [.close (2 * k), .close (2 * k + 1)] else [], ?_, by simp, ?_, ?_⟩
    · unfold WSys.bops; dsimp only; rw [if_pos hs]; rfl
    · intro x hx i p h1 h2
      split at hx
      · simp only [List.mem_cons, List.not_mem_nil, or_false] at hx
        rcases hx with rfl | rfl
        · exact fun h => h1 h.symm
        · exact fun h => h2 h.symm
      · cases hx
    · intro x hx
      rw [List.nil_append] at hx
      split at hx
      · simp only [List.mem_cons, List.not_mem_nil, or_false] at hx
        rcases hx with rfl | rfl <;> (intro _ _ e; cases e)
      · cases hx

theorem bops_wake_r {w : WSys} {pid : Nat → Nat} {os : WOs} {o : Out} {k : Nat} {buf : List Byte} {niov : Nat} {env : Env}
    (hs : (w.sys.signal (.readv k buf niov env)).wake = true) :
    ∃ post, w.bops pid os o (.readv k buf niov env) = .wake (2 * k + 1) os.o1 :: post ∧ (∀ x ∈ post, ∀ i p, i ≠ 2 * k → x.avoids i p) ∧
      (∀ x ∈ post, ∀ j os, x ≠ .wake j os) := by
  refine ⟨match (w.sys.signal (.readv k buf niov env)).force with | some f => [.force (2 * k) f os.o2] | none => [], ?_, ?_, ?_⟩
  · unfold WSys.bops; dsimp only; rw [if_pos hs]; rfl
  · intro x hx i p hi
    split at hx
    · simp only [List.mem_singleton] at hx; subst hx; exact fun h => hi h.symm
    · cases hx
  · intro x hx
    split at hx
    · simp only [List.mem_singleton] at hx; subst hx; intro _ _ e; cases e
    · cases hx

theorem readable_congr {sp sp' : Spec} {sh sh' : SHandle} (hg : sp'.gflags = sp.gflags) (h1 : sp'.tlog = sp.tlog) (h2 : sp'.base = sp.base)
    (h3 : sp'.first = sp.first) (h4 : sh'.pos = sh.pos) : sp'.readable sh' = sp.readable sh := by
  unfold Spec.readable Spec.unread Spec.farm Spec.log
  rw [hg, h1, h2, h3, h4]

theorem readable_mono {sp sp' : Spec} {sh : SHandle} (hg : sp'.gflags = sp.gflags) (h1 : sp'.tlog = sp.tlog) (h2 : sp'.base = sp.base)
    (h3 : sp.first ≤ sp'.first) (h : sp'.readable sh ≠ []) : sp.readable sh ≠ [] := by
  unfold Spec.readable Spec.unread Spec.farm Spec.log at *
  rw [hg, h1, h2] at h
  split at h
  · rename_i hf; rw [if_pos hf]; exact h
  · rename_i hf; rw [if_neg hf]
    simp only [ne_eq, List.drop_eq_nil_iff] at h ⊢
    omega

theorem fits_left {cap maxm : Nat} {U V new : List Msg} (h : Fits cap maxm (U ++ V) new) : Fits cap maxm U new := by
  unfold Fits bytesOf at *
  simp only [List.map_append, List.sum_append, List.length_append] at h
  omega

theorem NoFlush.congr {sp sp' : Spec} {sh sh' : SHandle} {iov : List Msg} (h1 : sp'.cap = sp.cap) (h2 : sp'.maxm = sp.maxm) (h3 : sh'.flags = sh.flags)
    (h4 : sh'.pend = sh.pend) (h5 : sh'.csz = sh.csz) (h6 : sh'.cvt = sh.cvt) (h : NoFlush sp sh iov) : NoFlush sp' sh' iov := by
  unfold NoFlush Spec.cacheFits at *
  rw [h1, h2, h3, h4, h5, h6]; exact h

theorem Suspended.mono {sp sp' : Spec} {sh : SHandle} {op : Op} (hle : SpLe sp sp') (h : Suspended sp sh op) : Suspended sp' sh op := by
  rcases h with h | ⟨h1, h2, h3, h4, h5⟩
  · exact .inl h
  · refine .inr ⟨h1, h2, h3, ?_, fun k iov e1 e2 e => ⟨(h5 k iov e1 e2 e).1.congr hle.cap hle.maxm rfl rfl rfl rfl, by rw [hle.cap, hle.maxm]; exact (h5 k iov e1 e2 e).2⟩⟩
    unfold Spec.drop at *; rw [hle.gf]; exact h4

theorem hrel_mode {s : Sys} {sp : Spec} (hr : Rel s sp) {k : Nat} {sh : SHandle} (h : sp.hs k = .live sh)
    (h1 : sh.flags.has SHR_RDONLY = true) (h2 : sh.flags.has SHR_WRONLY = true) : False := by
  have := hr.hs k
  rw [h] at this
  cases e : s.hs k with
  | never => rw [e] at this; exact this
  | gone b => rw [e] at this; exact this
  | live hd =>
    rw [e] at this
    have hm := HRel.mode this
    rw [h1, h2] at hm; cases hm

theorem not_readv {op : Op} (h : ¬ ∃ k buf niov env, op = .readv k buf niov env) : ∀ k buf niov env, op ≠ .readv k buf niov env :=
  fun k buf niov env e => h ⟨k, buf, niov, env, e⟩

theorem signal_force {s : Sys} {op : Op} (h : ∀ k buf niov env, op ≠ .readv k buf niov env) : (s.signal op).force = none := by
  cases op with
  | readv k buf niov env => exact absurd rfl (h k buf niov env)
  | writev k iov e1 e2 =>
    unfold Sys.signal; dsimp only
    split
    · split
      · rfl
      · split
        · rfl
        · exact sig_force _
    · rfl
  | flush k wait env =>
    unfold Sys.signal; dsimp only
    split
    · split
      · rfl
      · split
        · rfl
        · exact sig_force _
    · rfl
  | close k env =>
    unfold Sys.signal; dsimp only
    split
    · split
      · rfl
      · exact sig_force _
    · rfl
  | «open» => rfl
  | stat => rfl
  | farmStat => rfl
  | appdata => rfl

/-- The block/wake state of a handle after a call on it. -/
structure OwnAfter (pid : Nat → Nat) (b b' : BSys) (k : Nat) (sh sh' : SHandle) (force : Option Bool) (C S : Prop) : Prop where
  rd : sh.flags.has SHR_RDONLY = true → (∃ t, b'.ts (2 * k) = some (.wait 0 (pid k) t)) ∧
    (∃ v, b'.ts (2 * k + 1) = some (.wake 1 (pid k) v)) ∧ (C → force = none → b.pending (2 * k) ≤ b'.pending (2 * k)) ∧
    (C → S → ∀ f, force = some f → (1 ≤ b'.pending (2 * k) ↔ f = true))
  wr : sh.flags.has SHR_WRONLY = true → (∃ v, b'.ts (2 * k) = some (.wake 0 (pid k) v)) ∧
    (sh'.canWait = true → ∃ t, b'.ts (2 * k + 1) = some (.wait 1 (pid k) t)) ∧ (sh'.canWait = false → b'.ts (2 * k + 1) = none)

theorem own_simple {a : InitArgs} {pid : Nat → Nat} {w : WSys} {sp : Spec} (hw : TInv a pid w sp) {k : Nat} {sh sh' : SHandle}
    (hk : sp.hs k = .live sh) (hcan : sh'.canWait = sh.canWait) {ops : List BOp} (hav : ∀ x ∈ ops, ∀ i p, x.avoids i p) {C S : Prop}
    (hC : C → BInv w.b ∧ w.b.CleanRun ops) : OwnAfter pid w.b (w.b.runs ops) k sh sh' none C S where
  rd := fun hr => by
    obtain ⟨⟨t, ht⟩, v, hv⟩ := hw.rdl k sh hk hr
    exact ⟨⟨t, runs_wait ht (fun x hx => hav x hx _ _)⟩, runs_mode hv (fun x hx => hav x hx _ _),
      fun h _ => (runs_pending (hC h).1 (hC h).2 ht (fun x hx => hav x hx _ _)).2.1, fun _ _ f hf => by cases hf⟩
  wr := fun hr => by
    obtain ⟨⟨v, hv⟩, h1, h2⟩ := hw.wrl k sh hk hr
    refine ⟨runs_mode hv (fun x hx => hav x hx _ _), fun h => ?_, fun h => ?_⟩
    · obtain ⟨t, ht⟩ := h1 (hcan ▸ h)
      exact ⟨t, runs_wait ht (fun x hx => hav x hx _ _)⟩
    · exact runs_none (h2 (hcan ▸ h)) (fun x hx p => .inl (hav x hx _ _))

theorem own_after {a : InitArgs} {pid : Nat → Nat} {w : WSys} {sp : Spec} (hw : TInv a pid w sp) {op : Op} {os : WOs} {o : Out}
    (hno : ∀ k flags env, op ≠ .open k flags env) {sh sh' : SHandle} (hk : sp.hs op.handle = .live sh) (hkept : Kept sp (w.fill pid os op) sh sh')
    (hcl : ∀ k env, op = .close k env → o ≠ .closed) :
    OwnAfter pid w.b (w.b.runs (w.bops pid os o (w.fill pid os op))) op.handle sh sh' (w.sys.signal (w.fill pid os op)).force
      (BInv w.b ∧ w.b.CleanRun (w.bops pid os o (w.fill pid os op))) (w.b.Succeed (BOp.forces (2 * op.handle)) (w.bops pid os o (w.fill pid os op))) := by
  cases op with
  | «open» k flags env => exact absurd rfl (hno k flags env)
  | stat k reset env => exact own_simple hw hk (hkept.can (fun _ _ _ => by simp [WSys.fill])) (by intro x hx; cases hx) id
  | farmStat k reset => exact own_simple hw hk (hkept.can (fun _ _ _ => by simp [WSys.fill])) (by intro x hx; cases hx) id
  | appdata k get set sz env => exact own_simple hw hk (hkept.can (fun _ _ _ => by simp [WSys.fill])) (by intro x hx; cases hx) id
  | writev k iov e1 e2 =>
    rw [signal_force (by intro a b c d; simp [WSys.fill])]
    refine own_simple hw hk (hkept.can (fun _ _ _ => by simp [WSys.fill])) ?_ id
    intro x hx i p
    simp only [WSys.fill, WSys.bops] at hx
    split at hx
    · simp only [List.mem_singleton] at hx; subst hx; trivial
    · cases hx
  | close k env =>
    rw [signal_force (by intro a b c d; simp [WSys.fill])]
    refine own_simple hw hk (hkept.can (fun _ _ _ => by simp [WSys.fill])) ?_ id
    intro x hx i p
    simp only [WSys.fill, WSys.bops] at hx
    rcases List.mem_append.1 hx with hx | hx
    · split at hx
      · simp only [List.mem_singleton] at hx; subst hx; trivial
      · cases hx
    · rw [if_neg (fun h => hcl k env rfl h.1)] at hx; cases hx
  | readv k buf niov env =>
    have hcan := hkept.can (fun _ _ _ => by simp [WSys.fill])
    generalize hfop : w.fill pid os (.readv k buf niov env) = fop at *
    have hfop' : fop = .readv k buf niov { env with waitRc := none } := hfop.symm
    clear hfop
    subst hfop'
    simp only [Op.handle] at hk ⊢
    unfold WSys.bops
    dsimp only
    rw [cleanRun_append, succeed_append, runs_append]
    have hav1 : ∀ x ∈ (if (w.sys.signal (.readv k buf niov { env with waitRc := none })).wake then [BOp.wake (2 * k + 1) os.o1] else []), ∀ i p, x.avoids i p := by
      intro x hx i p
      split at hx
      · simp only [List.mem_singleton] at hx; subst hx; trivial
      · cases hx
    have h1 := own_simple (sh' := sh') hw hk hcan hav1 (C := BInv w.b ∧ w.b.CleanRun _) (S := True) id
    cases hf : (w.sys.signal (.readv k buf niov { env with waitRc := none })).force with
    | none =>
      refine ⟨fun hr => ?_, h1.wr⟩
      obtain ⟨g1, g2, g3, _⟩ := h1.rd hr
      exact ⟨g1, g2, fun h => g3 ⟨h.1, h.2.1⟩, fun _ _ f hf => by cases hf⟩
    | some f =>
      dsimp only
      generalize (if (w.sys.signal (.readv k buf niov { env with waitRc := none })).wake then [BOp.wake (2 * k + 1) os.o1] else []) = pre at *
      constructor
      · intro hr
        obtain ⟨⟨t, ht⟩, ⟨v, hv⟩, _, _⟩ := h1.rd hr
        have g1 : ((w.b.runs pre).step (.force (2 * k) f os.o2)).1.ts (2 * k) = some (.wait 0 (pid k) t) := by
          unfold BSys.step BSys.force; dsimp only; rw [ht]; exact ht
        refine ⟨⟨t, g1⟩, step_mode hv ?_, (fun _ h => by cases h), ?_⟩
        · show 2 * k ≠ 2 * k + 1; omega
        · rintro ⟨hre, hc⟩ hs f' ⟨⟩
          exact (force_pending (hre.runs hc.1) ht (hs.2.1 (by simp [BOp.forces]))).2
      · intro hr
        obtain ⟨⟨v, hv⟩, h2, h3⟩ := h1.wr hr
        have : ((w.b.runs pre).step (.force (2 * k) f os.o2)).1 = w.b.runs pre := by
          unfold BSys.step BSys.force; dsimp only; rw [hv]
        show _ ∧ _
        rw [show (w.b.runs pre).runs [.force (2 * k) f os.o2] = w.b.runs pre from this]
        exact ⟨⟨v, hv⟩, h2, h3⟩
  | flush k wait env =>
    rw [signal_force (by intro a b c d; simp [WSys.fill])]
    have hfl := hkept.flush k wait _ rfl
    simp only [Op.handle] at hk ⊢
    have hlive : ∃ h, w.sys.hs k = .live h ∧ HRel sp h sh := by
      have := hw.rel.hs k
      rw [hk] at this
      cases e : w.sys.hs k with
      | never => rw [e] at this; exact this.elim
      | gone b => rw [e] at this; exact this.elim
      | live h => rw [e] at this; exact ⟨h, rfl, this⟩
    obtain ⟨h, hsk, hh⟩ := hlive
    generalize hfop : w.fill pid os (.flush k wait env) = fop at *
    obtain ⟨env', he', hlk, hbo⟩ : ∃ env', fop = .flush k wait env' ∧ env'.lockOk = env.lockOk ∧
        env'.bwOpenOk = (w.b.step (.openWait (2 * k + 1) 1 (pid k) os.o2)).2 := ⟨_, hfop.symm, rfl, rfl⟩
    have hfl : (sh.flags.has SHR_WRONLY = false ∧ sh' = sh) ∨ (sh.flags.has SHR_WRONLY = true ∧ sh' = (sp.flush k sh wait env').2.1) :=
      hkept.flush k wait env' he'
    clear hfop
    subst he'
    unfold WSys.bops WSys.flushPre
    dsimp only
    have hav : ∀ x ∈ (if (w.sys.signal (.flush k wait env')).wake then [BOp.wake (2 * k) os.o1] else []), ∀ i p, x.avoids i p := by
      intro x hx i p
      split at hx
      · simp only [List.mem_singleton] at hx; subst hx; trivial
      · cases hx
    have hfo : w.flushOpens k wait env' = (sh.flags.has SHR_WRONLY && decide (sh.pend ≠ []) && (sh.flags.has SHR_NONBLOCK && wait) && !sh.canWait && env'.lockOk) := by
      unfold WSys.flushOpens
      rw [hsk]
      dsimp only
      have hd : decide (h.c.n ≠ 0) = decide (sh.pend ≠ []) := by
        have := hh.cache.n_zero
        by_cases hp : sh.pend = []
        · simp [hp, this.2 hp]
        · have hn : h.c.n ≠ 0 := fun x => hp (this.1 x)
          rw [decide_eq_true hn, decide_eq_true hp]
      rw [hh.flags, hh.r2w, hd]
    revert hav
    generalize (if (w.sys.signal (.flush k wait env')).wake = true then [BOp.wake (2 * k) os.o1] else []) = post
    intro hav
    by_cases hopen : w.flushOpens k wait env' = true
    · rw [if_pos hopen]
      rw [hfo] at hopen
      simp only [Bool.and_eq_true, Bool.not_eq_true', decide_eq_true_eq] at hopen
      obtain ⟨⟨⟨⟨hwo, hpe⟩, hnbw⟩, hcw⟩, hlk'⟩ := hopen
      rw [runs_append]
      constructor
      · intro hr; exact (hrel_mode hw.rel hk hr hwo).elim
      · intro _
        obtain ⟨⟨v, hv⟩, _, hnone⟩ := hw.wrl k sh hk hwo
        obtain ⟨v1, hv1⟩ := runs_mode (ops := [BOp.openWait (2 * k + 1) 1 (pid k) os.o2]) hv (by
          intro x hx; simp only [List.mem_singleton] at hx; subst hx; show 2 * k + 1 ≠ 2 * k; omega)
        refine ⟨runs_mode hv1 (fun x hx => hav x hx _ _), ?_⟩
        have hsh' : sh' = (sp.flush k sh wait env').2.1 := by
          rcases hfl with ⟨h1, _⟩ | ⟨_, h1⟩
          · rw [hwo] at h1; cases h1
          · exact h1
        have hcan' : sh'.canWait = (w.b.step (.openWait (2 * k + 1) 1 (pid k) os.o2)).2 := by
          rw [hsh', (flush_sh sp k sh wait env').2, hcw, hlk', hbo]
          simp only [ne_eq, hpe, not_false_eq_true, decide_true, Bool.true_and, Bool.false_or]
          rw [show (sh.flags.has SHR_NONBLOCK && wait) = true by simpa using hnbw]
          rfl
        rw [hcan']
        constructor
        · intro hok
          obtain ⟨t, ht⟩ := openWait_ok hok
          exact ⟨t, runs_wait (show (w.b.runs [.openWait (2 * k + 1) 1 (pid k) os.o2]).ts _ = _ from ht) (fun x hx => hav x hx _ _)⟩
        · intro hok
          have := open_fail_ts.1 hok
          refine runs_none ?_ (fun x hx p => .inl (hav x hx _ _))
          show (w.b.step (.openWait (2 * k + 1) 1 (pid k) os.o2)).1.ts _ = none
          rw [this]; exact hnone hcw
    · rw [if_neg hopen]
      rw [hfo] at hopen
      refine own_simple hw hk ?_ hav id
      rcases hfl with ⟨_, h1⟩ | ⟨hwo, h1⟩
      · rw [h1]
      · rw [h1, (flush_sh sp k sh wait env').2]
        rw [hwo] at hopen
        cases hcw : sh.canWait
        · rw [hcw] at hopen
          cases h2 : decide (sh.pend ≠ []) <;> cases h3 : (sh.flags.has SHR_NONBLOCK && wait) <;> cases h4 : env'.lockOk <;>
            rw [h2, h3, h4] at hopen <;> simp at hopen ⊢
        · simp

theorem close_closed {sp : Spec} {k : Nat} {env : Env} {sh : SHandle} (h : (sp.step (.close k env)).1.hs k = .live sh) :
    (sp.step (.close k env)).2 ≠ .closed := by
  unfold Spec.step at h ⊢
  dsimp only at h ⊢
  cases hk : sp.hs k with
  | live s0 =>
    rw [hk] at h
    dsimp only at h ⊢
    generalize sp.flush k s0 false env = X at *
    obtain ⟨sp1, sh1, w⟩ := X
    cases w with
    | wait => simp
    | ret rc => dsimp only at h; rw [upd_same] at h; cases h
  | never => simp
  | gone b => simp

theorem blocked_legal {sp : Spec} {k : Nat} {iov : List Msg} {e1 e2 : Env} (h : (sp.step (.writev k iov e1 e2)).2 = .blocked) :
    Legal sp.cap sp.maxm iov := by
  by_cases hL : Legal sp.cap sp.maxm iov
  · exact hL
  · exfalso
    unfold Spec.step at h
    dsimp only at h
    cases hk : sp.hs k with
    | live sh =>
      rw [hk] at h
      dsimp only at h
      split at h
      · cases h
      · unfold Spec.writev at h
        dsimp only at h
        rw [if_pos hL] at h
        cases h
    | never => rw [hk] at h; cases h
    | gone b => rw [hk] at h; cases h

theorem attempt_inv {a : InitArgs} {pid : Nat → Nat} {w w' : WSys} {sp : Spec} (hw : TInv a pid w sp) {op : Op} {os : WOs} {o : Out} {ops : List BOp}
    (hno : ∀ k flags env, op ≠ .open k flags env) (hwf : op.WF a.appsize)
    (hnf : ∀ k iov e1 e2 sh, op = .writev k iov e1 e2 → sp.hs k = .live sh → sh.flags.has SHR_WRONLY = true → NoFlush sp sh iov)
    (hlog : sp.farm = true → (sp.step (w.fill pid os op)).1.log.length < W) (hat : w.attempt pid op os = some (w', o, ops)) :
    TInv a pid w' (sp.step (w.fill pid os op)).1 ∧ (BInv w.b ∧ w.b.CleanRun ops →
      (∀ k P, w.b.Succeed (BOp.wakes 0) ops → (P → w.b.Succeed (BOp.forces (2 * k)) ops) → J1 w sp k P → J1 w' (sp.step (w.fill pid os op)).1 k P) ∧
      (∀ k, w.b.Succeed (BOp.wakes 1) ops → J2 w sp k → J2 w' (sp.step (w.fill pid os op)).1 k)) := by
  have hwf' : (w.fill pid os op).WF sp.app.length := by rw [hw.app]; exact fill_wf.2 hwf
  obtain ⟨s', hst, hrel'⟩ := step_refine hw.rel (w.fill pid os op) hwf' hlog
  have hnf' : ∀ k iov e1 e2 sh, w.fill pid os op = .writev k iov e1 e2 → sp.hs k = .live sh → sh.flags.has SHR_WRONLY = true → NoFlush sp sh iov := by
    intro k iov e1 e2 sh he
    cases op <;> simp only [WSys.fill] at he <;> cases he
    exact hnf _ _ _ _ sh rfl
  have hsent := sent_step hw.rel (w.fill pid os op) hwf' hnf' hlog
  have happ := step_app_length (w.fill pid os op) hwf'
  have hno' := fill_open (w := w) (pid := pid) (os := os) hno
  have hkept := step_kept sp (w.fill pid os op) hno'
  have hoth := fun j => step_other_hs sp (w.fill pid os op) j
  have hown := bops_own (w := w) (pid := pid) (os := os) (o := o) hno'
  have hswk := fun h => signal_wake hw.rel (op := w.fill pid os op) h
  have hfr := fill_readv (w := w) (pid := pid) (os := os) (op := op)
  have hh := fill_handle w pid os op
  have hwr := fill_writes w pid os op
  have hwt := fill_wanted w pid os op
  have hwkw := bops_wake_w (w := w) (pid := pid) (os := os) (o := o) (op := w.fill pid os op)
  unfold WSys.attempt at hat
  rw [hst] at hat
  simp only [Option.some.injEq, Prod.mk.injEq] at hat
  obtain ⟨rfl, rfl, rfl⟩ := hat
  generalize hfop : w.fill pid os op = fop at *
  generalize hsp' : (sp.step fop).1 = sp' at *
  generalize ho : (sp.step fop).2 = o at *
  generalize hops : w.bops pid os o fop = ops at *
  rw [hh] at *
  generalize hk : op.handle = k at *
  have hle := hsent.le
  -- readers and writers that are not involved
  have keepW : ∀ i h p t, i ≠ 2 * k → i ≠ 2 * k + 1 → w.b.ts i = some (.wait h p t) →
      (w.b.runs ops).ts i = some (.wait h p t) ∧ (BInv w.b ∧ w.b.CleanRun ops → w.b.pending i ≤ (w.b.runs ops).pending i) := by
    intro i h p t h1 h2 e
    exact ⟨runs_wait e (fun x hx => hown x hx i p h1 h2), fun hC => (runs_pending hC.1 hC.2 e (fun x hx => hown x hx i p h1 h2)).2.1⟩
  have keepV : ∀ i h p v, i ≠ 2 * k → i ≠ 2 * k + 1 → w.b.ts i = some (.wake h p v) → ∃ v, (w.b.runs ops).ts i = some (.wake h p v) := by
    intro i h p t h1 h2 e
    exact runs_mode e (fun x hx => hown x hx i p h1 h2)
  have keepN : ∀ i, i ≠ 2 * k → i ≠ 2 * k + 1 → w.b.ts i = none → (w.b.runs ops).ts i = none := by
    intro i h1 h2 e
    exact runs_none e (fun x hx p => .inl (hown x hx i p h1 h2))
  have hdrop : sp'.drop = sp.drop := by unfold Spec.drop; rw [hle.gf]
  -- what happened to the handle itself
  have own : ∀ sh', sp'.hs k = .live sh' → ∃ sh, sp.hs k = .live sh ∧ Kept sp fop sh sh' ∧
      OwnAfter pid w.b (w.b.runs ops) k sh sh' (w.sys.signal fop).force (BInv w.b ∧ w.b.CleanRun ops) (w.b.Succeed (BOp.forces (2 * k)) ops) := by
    intro sh' hs'
    obtain ⟨sh, h1, h2⟩ := hkept sh' hs'
    refine ⟨sh, h1, h2, ?_⟩
    have := own_after (os := os) (o := o) (sh' := sh') hw hno (hk.symm ▸ h1) (by rw [hfop]; exact h2) (by
      rintro k' env' rfl
      simp only [WSys.fill] at hfop
      rw [← ho, ← hfop]
      apply close_closed (sh := sh')
      rw [hfop, hsp']
      have : k' = k := hk
      rw [this]; exact hs')
    rw [hfop, hops, hk] at this
    exact this
  have hfk : fop.handle = k := by rw [← hfop, fill_handle]; exact hk
  have blocked : ∀ op' b, upd w.blk k (if o = .blocked then some (op, false) else none) k = some (op', b) → o = .blocked ∧ op' = op ∧ b = false := by
    intro op' b h
    rw [upd_same] at h
    split at h
    · cases h; rename_i h; exact ⟨h, rfl, rfl⟩
    · cases h
  have rdv : ∀ {k' buf niov env}, fop = .readv k' buf niov env → k' = k := by rintro k' buf niov env rfl; exact hfk
  have wakeW : BInv w.b ∧ w.b.CleanRun ops → w.b.Succeed (BOp.wakes 0) ops → (∀ k buf niov env, fop ≠ .readv k buf niov env) → (w.sys.signal fop).wake = true → ∀ i q t, i ≠ 2 * k → i ≠ 2 * k + 1 →
      w.b.ts i = some (.wait 0 q t) → 1 ≤ (w.b.runs ops).pending i := by
    intro hC hs hn hwk i q t h1 h2 e
    obtain ⟨hre, hc⟩ := hC
    obtain ⟨sh, hsh, hcase⟩ := hswk hwk
    rcases hcase with ⟨⟨_, _, _, _, h⟩, _⟩ | ⟨hwrt, hwo⟩
    · exact absurd h (hn _ _ _ _)
    obtain ⟨pre, post, e1, e2, e3, _⟩ := hwkw hwrt hwk
    obtain ⟨⟨v, hv⟩, _⟩ := hw.wrl k sh (hfk ▸ hsh) hwo
    rw [e1] at hc hs ⊢
    rw [succeed_append] at hs
    exact runs_wake hre hc (hs.2.1 (by simp [BOp.wakes])) hv e (fun x hx => e2 x hx _ _ (by omega)) (fun x hx => e2 x hx _ _ h2) (fun x hx => e3 x hx _ _ h1 h2)
  have wakeR : BInv w.b ∧ w.b.CleanRun ops → w.b.Succeed (BOp.wakes 1) ops → ∀ k' buf niov env, fop = .readv k' buf niov env → (w.sys.signal fop).wake = true → ∀ i q t, i ≠ 2 * k → i ≠ 2 * k + 1 →
      w.b.ts i = some (.wait 1 q t) → 1 ≤ (w.b.runs ops).pending i := by
    intro hC hs k' buf niov env ef hwk i q t h1 h2 e
    obtain ⟨hre, hc⟩ := hC
    obtain ⟨sh, hsh, hcase⟩ := hswk hwk
    rw [hfk] at hsh
    rcases hcase with ⟨_, hro⟩ | ⟨hwrt, _⟩
    · obtain ⟨_, v, hv⟩ := hw.rdl k sh hsh hro
      cases rdv ef
      rw [ef] at hwk
      obtain ⟨post, e1, e2, _⟩ := bops_wake_r (w := w) (pid := pid) (os := os) (o := o) hwk
      rw [← ef, hops] at e1
      rw [e1] at hc hs ⊢
      exact runs_wake (pre := []) hre hc (hs.1 (by simp [BOp.wakes])) hv e (by simp) (by simp) (fun x hx => e2 x hx _ _ h1)
    · rw [ef] at hwrt; cases hwrt
  have hT : TInv a pid { sys := s', b := w.b.runs ops, blk := upd w.blk k (if o = .blocked then some (op, false) else none) } sp' := by
   constructor
   case rel => exact hrel'
   case cap => rw [hle.cap, hw.cap]
   case maxm => rw [hle.maxm, hw.maxm]
   case gf => rw [hle.gf, hw.gf]
   case app => rw [happ, hw.app]
   case canw =>
     intro j sh' hs' h1 h2 h3
     by_cases hj : j = k
     · subst hj
       obtain ⟨sh, e1, e2, _⟩ := own sh' hs'
       have hcw := hw.canw _ sh e1 (e2.flags ▸ h1) (e2.flags ▸ h2) (hdrop ▸ h3)
       by_cases hf : ∀ k wait env, fop ≠ .flush k wait env
       · rw [e2.can hf]; exact hcw
       · simp only [not_forall, Classical.not_not] at hf
         obtain ⟨k', wait, env, ef⟩ := hf
         rcases e2.flush _ _ _ ef with ⟨_, e⟩ | ⟨_, e⟩
         · rw [e]; exact hcw
         · rw [e, (flush_sh sp k' sh wait env).2, hcw]; simp
     · rw [hoth j (Ne.symm hj)] at hs'
       exact hw.canw j sh' hs' h1 h2 (hdrop ▸ h3)
   case rdl =>
     intro j sh' hs' hro
     by_cases hj : j = k
     · subst hj
       obtain ⟨sh, e1, e2, e3⟩ := own sh' hs'
       obtain ⟨g1, g2, _⟩ := e3.rd (e2.flags ▸ hro)
       exact ⟨g1, g2⟩
     · rw [hoth j (Ne.symm hj)] at hs'
       obtain ⟨⟨t, ht⟩, v, hv⟩ := hw.rdl j sh' hs' hro
       exact ⟨⟨t, (keepW _ _ _ _ (by omega) (by omega) ht).1⟩, keepV _ _ _ _ (by omega) (by omega) hv⟩
   case wrl =>
     intro j sh' hs' hro
     by_cases hj : j = k
     · subst hj
       obtain ⟨sh, e1, e2, e3⟩ := own sh' hs'
       exact e3.wr (e2.flags ▸ hro)
     · rw [hoth j (Ne.symm hj)] at hs'
       obtain ⟨⟨v, hv⟩, h1, h2⟩ := hw.wrl j sh' hs' hro
       refine ⟨keepV _ _ _ _ (by omega) (by omega) hv, fun h => ?_, fun h => keepN _ (by omega) (by omega) (h2 h)⟩
       obtain ⟨t, ht⟩ := h1 h
       exact ⟨t, (keepW _ _ _ _ (by omega) (by omega) ht).1⟩
   case blk =>
     intro j op' b hb
     by_cases hj : j = k
     · subst hj
       obtain ⟨ho', rfl, rfl⟩ := blocked _ _ hb
       refine ⟨hk, hwf, ?_⟩
       by_cases hrv : ∃ k buf niov env, fop = .readv k buf niov env
       · have hrv' := hfr.1 hrv
         obtain ⟨k', buf, niov, env, ef⟩ := hrv
         cases rdv ef
         obtain ⟨sh', e1, e2, e3, _⟩ := hsent.blkR _ _ _ _ ef ho'
         exact ⟨sh', e1, .inl ⟨hrv', e2, e3⟩⟩
       · obtain ⟨hwrt, sh, sh', e1, e2, e3, e4, e5, e6, e7, e8, e9, _⟩ := hsent.blkW (not_readv hrv) ho'
         rw [hfk] at e1 e2
         refine ⟨sh', e2, .inr ⟨hwr ▸ hwrt, e7, ?_, hdrop ▸ e8, ?_⟩⟩
         · rcases e9 with e9 | ⟨e9, e10⟩
           · exact e9
           · rw [e9]; exact hw.canw _ sh e1 (e3 ▸ e7) e10 e8
         · rintro k' iov f1 f2 rfl
           cases hk
           refine ⟨(hnf _ _ _ _ sh rfl e1 (e3 ▸ e7)).congr hle.cap hle.maxm e3 e4 e5 e6, ?_⟩
           rw [hle.cap, hle.maxm]
           simp only [WSys.fill] at hfop
           rw [← hfop] at ho
           exact blocked_legal (ho.trans ho')
     · dsimp only at hb
       rw [upd_other _ _ hj] at hb
       obtain ⟨e1, e2, sh, e3, e4⟩ := hw.blk j op' b hb
       exact ⟨e1, e2, sh, by rw [hoth j (Ne.symm hj)]; exact e3, e4.mono hle⟩
  refine ⟨hT, fun hC => ⟨fun j P hs hsf hj1 => ?_, fun j hs hj2 => ?_⟩⟩
  · intro sh' hs' hro hcond hne
    by_cases hj : j = k
    · subst hj
      obtain ⟨sh, e1, e2, e3⟩ := own sh' hs'
      obtain ⟨_, _, p1, p2⟩ := e3.rd (e2.flags ▸ hro)
      have p1 := p1 hC
      have p2 := fun hP => p2 hC (hsf hP)
      by_cases hrv : ∃ k buf niov env, fop = .readv k buf niov env
      · obtain ⟨k', buf, niov, env, ef⟩ := hrv
        cases rdv ef
        cases hnb : sh'.flags.has SHR_NONBLOCK
        · rcases hcond with h | ⟨op', h⟩
          · rw [hnb] at h; cases h.2
          · obtain ⟨ho', _, _⟩ := blocked _ _ h
            obtain ⟨sh2, g1, _, _, g2⟩ := hsent.blkR _ _ _ _ ef ho'
            rw [hs'] at g1; cases g1
            exact absurd g2 hne
        · have hP : P := by
            rcases hcond with h | ⟨op', h⟩
            · exact h.1
            · obtain ⟨ho', _, _⟩ := blocked _ _ h
              obtain ⟨sh2, g1, _, g0, _⟩ := hsent.blkR _ _ _ _ ef ho'
              rw [hs'] at g1; cases g1
              rw [hnb] at g0; cases g0
          have hfrc := hsent.frc _ _ _ _ sh' ef hs' hnb
          obtain ⟨r1, r2, _, _⟩ := hsent.rd _ _ _ _ ef
          cases hf : (w.sys.signal fop).force with
          | none =>
            rw [hf] at hfrc
            obtain ⟨g1, g2, _⟩ := hfrc
            refine Nat.le_trans (hj1 sh' (g1 ▸ hs') hro (.inl ⟨hP, hnb⟩) ?_) (p1 hf)
            rw [← readable_congr hle.gf r1 r2 g2 rfl]; exact hne
          | some f =>
            rw [hf] at hfrc
            exact (p2 hP f hf).2 (by rw [show f = _ from hfrc]; exact decide_eq_true hne)
      · cases hwk : (w.sys.signal fop).wake
        · obtain ⟨c1, _, c3⟩ := hsent.wr (not_readv hrv)
          obtain ⟨c4, c5, c6⟩ := c1 hwk
          rcases hcond with h | ⟨op', h⟩
          · refine Nat.le_trans (hj1 sh e1 (e2.flags ▸ hro) (.inl ⟨h.1, e2.flags ▸ h.2⟩) ?_) (p1 c3)
            rw [← readable_congr hle.gf c4 c5 c6 (e2.pos (not_readv hrv))]; exact hne
          · obtain ⟨ho', _, _⟩ := blocked _ _ h
            obtain ⟨_, _, sh2, _, g1, _, _, _, _, g2, _⟩ := hsent.blkW (not_readv hrv) ho'
            rw [hfk, hs'] at g1; cases g1
            exact (hrel_mode hrel' hs' hro g2).elim
        · obtain ⟨sh2, g1, g2⟩ := hswk hwk
          rw [hfk, e1] at g1; cases g1
          rcases g2 with ⟨g2, _⟩ | ⟨_, g2⟩
          · exact absurd g2 hrv
          · exact (hrel_mode hw.rel e1 (e2.flags ▸ hro) g2).elim
    · rw [hoth j (Ne.symm hj)] at hs'
      dsimp only at hcond
      rw [upd_other _ _ hj] at hcond
      obtain ⟨⟨t, ht⟩, _⟩ := hw.rdl j sh' hs' hro
      have hmono := (keepW _ _ _ _ (by omega) (by omega) ht).2 hC
      by_cases hrv : ∃ k buf niov env, fop = .readv k buf niov env
      · obtain ⟨k', buf, niov, env, ef⟩ := hrv
        obtain ⟨r1, r2, r3, _⟩ := hsent.rd _ _ _ _ ef
        exact Nat.le_trans (hj1 sh' hs' hro hcond (readable_mono hle.gf r1 r2 r3 hne)) hmono
      · cases hwk : (w.sys.signal fop).wake
        · obtain ⟨c4, c5, c6⟩ := (hsent.wr (not_readv hrv)).1 hwk
          refine Nat.le_trans (hj1 sh' hs' hro hcond ?_) hmono
          rw [← readable_congr hle.gf c4 c5 c6 rfl]; exact hne
        · exact wakeW hC hs (not_readv hrv) hwk _ _ _ (by omega) (by omega) ht
  · intro op' sh' hb hwrt hs' hfit
    by_cases hj : j = k
    · subst hj
      obtain ⟨ho', rfl, _⟩ := blocked _ _ hb
      have hrv : ¬ ∃ k buf niov env, fop = .readv k buf niov env := by
        rintro ⟨_, _, _, _, ef⟩
        rw [← hwr, ef] at hwrt; cases hwrt
      obtain ⟨_, _, sh2, _, g1, _, _, _, _, _, _, _, g2⟩ := hsent.blkW (not_readv hrv) ho'
      rw [hfk, hs'] at g1; cases g1
      rw [hwt] at g2
      exact absurd hfit g2
    · rw [hoth j (Ne.symm hj)] at hs'
      dsimp only at hb
      rw [upd_other _ _ hj] at hb
      obtain ⟨_, _, sh2, g1, g2⟩ := hw.blk j op' false hb
      rw [hs'] at g1; cases g1
      rcases g2 with ⟨⟨_, _, _, _, e⟩, _⟩ | ⟨_, g3, g4, g5, _⟩
      · rw [e] at hwrt; cases hwrt
      obtain ⟨t, ht⟩ := (hw.wrl j sh' hs' g3).2.1 g4
      have hmono := (keepW _ _ _ _ (by omega) (by omega) ht).2 hC
      rw [hle.cap, hle.maxm] at hfit
      by_cases hrv : ∃ k buf niov env, fop = .readv k buf niov env
      · obtain ⟨k', buf, niov, env, ef⟩ := hrv
        obtain ⟨r1, r2, r3, r4⟩ := hsent.rd _ _ _ _ ef
        cases hwk : (w.sys.signal fop).wake
        · refine Nat.le_trans (hj2 op' sh' hb hwrt hs' ?_) hmono
          have : sp'.unread = sp.unread := by unfold Spec.unread Spec.log; rw [r1, r4 hwk]
          rw [← this]; exact hfit
        · exact wakeR hC hs _ _ _ _ ef hwk _ _ _ (by omega) (by omega) ht
      · obtain ⟨new, hnew⟩ := (hsent.wr (not_readv hrv)).2.1 g5
        rw [hnew] at hfit
        exact Nat.le_trans (hj2 op' sh' hb hwrt hs' (fits_left hfit)) hmono

end Shr
