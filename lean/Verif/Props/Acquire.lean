import Verif.Props.Res
import Verif.Props.OpenFile
/-! # C89: when `shr_open` succeeds, and what it then holds -/
namespace Shr

/-! ## The specification -/

/-- `has_pid_socket` finds out that the process, or its socket, does not exist: there is no such process, or the descriptors of the process and the table
of all sockets could be read and the socket is not among them. -/
def PidEnv.Gone (e : PidEnv) : Prop :=
  e.alive = false ∨
  (e.opendirOk = true ∧ e.walkOk = true ∧ e.openOk = true ∧ (∀ r ∈ e.first :: e.rounds, r = (true, true)) ∧ e.answer = 0)

/-- A registered waiter is no obstacle: it can be connected to, or does not exist any more. -/
def SlotEnv.Fine (e : SlotEnv) : Prop := e.used = false ∨ (e.sockOk = true ∧ (e.connOk = true ∨ e.pid.Gone))

/-- A registered waiter is connected to. -/
def SlotEnv.connects (e : SlotEnv) : Bool := e.used && e.sockOk && e.connOk

/-- The system lets `bw_open(BW_WAKE)` succeed. -/
def BwEnv.WakeFine (e : BwEnv) : Prop := e.callocOk = true ∧ ∀ s ∈ e.slots.take 64, s.Fine

/-- The system lets `bw_open(BW_WAIT)` succeed. -/
def BwEnv.WaitFine (e : BwEnv) : Prop :=
  e.callocOk = true ∧ e.slotFree = true ∧ e.sockOk = true ∧ e.bindOk = true ∧ e.nameOk = true ∧ e.selfSockOk = true ∧ e.selfConnOk = true ∧
  e.epollOk = true ∧ e.addOk = true

/-- The system lets `shr_open` succeed. -/
structure OpenREnv.Fine (flags gflags : Flags) (e : OpenREnv) : Prop where
  ring : e.callocOk = true ∧ e.openOk = true ∧ e.fstatOk = true ∧ e.mmapOk = true ∧ e.lockOk = true ∧ e.validOk = true
  mlock : gflags.has SHR_MLOCK = true → e.mlockOk = true
  reader : flags.has SHR_RDONLY = true → e.rdWait.WaitFine ∧ e.rdWake.WakeFine ∧ e.forceOk = true
  writer : flags.has SHR_WRONLY = true → e.wrWake.WakeFine
  waits : flags.has SHR_WRONLY = true → flags.has SHR_NONBLOCK = false → gflags.has SHR_DROP = false → e.wrWait.WaitFine
  cache : flags.has SHR_WRONLY = true → flags.has SHR_BUFFERED = true → e.bufOk = true ∧ e.iovOk = true
  sync : gflags.has SHR_SYNC = true → e.syncOk = true

/-- How many sockets a waker has. -/
def BwEnv.conns (e : BwEnv) : Nat := ((e.slots.take 64).filter SlotEnv.connects).length

/-! ## The values -/
theorem rm_bind {α β : Type} (x : RM α) (f : α → RM β) (s : Led) : (x >>= f) s = f (x s).1 (x s).2 := rfl
theorem rm_pure {α : Type} (a : α) (s : Led) : (pure a : RM α) s = (a, s) := rfl
theorem rm_acq (s : Led) : (acquire s).1 = s.next := rfl

theorem slurpLoopR_fails (l : List (Bool × Bool)) : ∀ (buf : Option Nat) (s : Led), ¬ (∀ r ∈ l, r = (true, true)) → (slurpLoopR buf l s).1.2 = false := by
  induction l with
  | nil => intro buf s h; exact absurd (by simp) h
  | cons r l ih =>
    obtain ⟨a, b⟩ := r
    intro buf s h
    unfold slurpLoopR
    cases a with
    | false => rfl
    | true =>
      rw [if_neg (by simp), rm_bind]
      cases b with
      | false => rfl
      | true =>
        rw [if_neg (by simp)]
        exact ih _ _ fun hl => h (by intro r hr; rcases List.mem_cons.1 hr with rfl | hr; rfl; exact hl r hr)

theorem PidEnv.gone_iff (e : PidEnv) : e.Extinct ↔ e.Gone := by
  unfold PidEnv.Extinct PidEnv.Gone PidEnv.slurped
  rw [Bool.and_eq_true, List.all_eq_true]
  have : (∀ x ∈ e.first :: e.rounds, (x.1 && x.2) = true) ↔ ∀ r ∈ e.first :: e.rounds, r = (true, true) := by
    constructor <;> intro h r hr <;> have := h r hr
    · obtain ⟨a, b⟩ := r; cases a <;> cases b <;> simp_all
    · rw [this]; rfl
  rw [this]
  constructor <;> rintro (h | h)
  · exact .inl h
  · exact .inr ⟨h.1, h.2.1, h.2.2.1.1, h.2.2.1.2, h.2.2.2⟩
  · exact .inl h
  · exact .inr ⟨h.1, h.2.1, ⟨h.2.2.1, h.2.2.2.1⟩, h.2.2.2.2⟩

theorem hasPidR_iff (e : PidEnv) (s : Led) : (hasPidR e s).1 = 0 ↔ e.Gone := by
  rw [← e.gone_iff]
  refine ⟨fun h => ?_, fun h => hasPidR_val h s⟩
  rw [e.gone_iff]
  unfold hasPidR at h
  by_cases ha : e.alive = false
  · exact .inl ha
  right
  rw [if_neg ha, rm_bind] at h
  unfold getInodesR at h
  by_cases ho : e.opendirOk = false
  · rw [if_pos ho] at h; simp [rm_pure] at h
  rw [if_neg ho] at h
  by_cases hw : e.walkOk = false
  · simp [rm_bind, hw, rm_pure] at h
  have hw' : e.walkOk = true := by simpa using hw
  simp only [rm_bind, hw', Bool.true_eq_false, if_false, rm_pure] at h
  unfold hasNameR at h
  rw [rm_bind] at h
  unfold slurpR at h
  by_cases hop : e.openOk = false
  · rw [if_pos hop] at h; simp [rm_pure] at h
  rw [if_neg hop] at h
  simp only [rm_bind] at h
  by_cases hl : ∀ r ∈ e.first :: e.rounds, r = (true, true)
  · refine ⟨by simpa using ho, hw', by simpa using hop, hl, ?_⟩
    generalize slurpLoopR none (e.first :: e.rounds) _ = q at h
    obtain ⟨⟨buf, ok⟩, s1⟩ := q
    cases ok <;> cases buf <;> simp [rm_bind, rm_pure] at h
    exact h
  · have := slurpLoopR_fails _ none (acquire (release (acquire s).1 (acquire s).2).2).2 hl
    rw [this] at h
    simp [rm_bind, rm_pure] at h

theorem openSocketR_iff (e : SlotEnv) (s : Led) (hu : e.used = true) :
    ((openSocketR e s).1.2 = true ↔ e.Fine) ∧ (openSocketR e s).1.1.isSome = (e.sockOk && e.connOk) := by
  unfold openSocketR SlotEnv.Fine
  by_cases hs : e.sockOk = false
  · rw [if_pos hs]; simp [rm_pure, hs, hu]
  have hs' : e.sockOk = true := by simpa using hs
  rw [if_neg hs]
  simp only [rm_bind]
  by_cases hc : e.connOk = true
  · simp [hc, hs', rm_pure]
  · have hc' : e.connOk = false := by simpa using hc
    simp [hc', hs', hu, rm_pure, rm_bind, hasPidR_iff]

theorem syncR_iff : ∀ (n : Nat) (es : List SlotEnv) (s : Led),
    ((syncR (List.replicate n none) es s).1.2 = true ↔ ∀ e ∈ es.take n, e.Fine) ∧
    ((syncR (List.replicate n none) es s).1.2 = true →
      (socks (syncR (List.replicate n none) es s).1.1).length = ((es.take n).filter SlotEnv.connects).length)
  | 0, es, s => by
    have h1 : syncR (List.replicate 0 none) es s = (([], true), s) := by cases es <;> rfl
    rw [h1]; simp [socks]
  | n + 1, [], s => by
    have h1 : syncR (List.replicate (n + 1) none) [] s = ((List.replicate (n + 1) none, true), s) := rfl
    rw [h1]; simp [socks_none]
  | n + 1, e :: es, s => by
    rw [List.replicate_succ]
    unfold syncR
    simp only [Option.isSome_none, Bool.false_eq_true, false_and, if_false, rm_bind, rm_pure, and_true]
    by_cases hu : e.used = true
    · rw [if_pos hu]
      obtain ⟨h1, h2⟩ := openSocketR_iff e s hu
      generalize openSocketR e s = q at h1 h2
      obtain ⟨⟨f, ok⟩, s1⟩ := q
      dsimp only at h1 h2 ⊢
      cases ok with
      | false =>
        simp only [if_true, rm_pure, List.take_succ_cons, List.mem_cons, forall_eq_or_imp]
        have : ¬ e.Fine := fun h => by have := h1.2 h; cases this
        simp [this]
      | true =>
        obtain ⟨g1, g2⟩ := syncR_iff n es s1
        have hf := h1.1 rfl
        simp only [Bool.true_eq_false, if_false, rm_bind, rm_pure, List.take_succ_cons, List.mem_cons, forall_eq_or_imp, hf, true_and]
        refine ⟨g1, fun h => ?_⟩
        rw [socks_cons, List.length_append, g2 h, List.filter_cons]
        have : e.connects = (e.sockOk && e.connOk) := by simp [SlotEnv.connects, hu]
        rw [this, ← h2]
        cases f <;> simp [Nat.add_comm]
    · have hu' : e.used = false := by simpa using hu
      obtain ⟨g1, g2⟩ := syncR_iff n es s
      rw [if_neg hu]
      have hf : e.Fine := .inl hu'
      simp only [rm_pure, Bool.true_eq_false, if_false, rm_bind, List.take_succ_cons, List.mem_cons, forall_eq_or_imp, hf, true_and]
      refine ⟨g1, fun h => ?_⟩
      rw [socks_cons, Option.toList_none, List.nil_append, g2 h, List.filter_cons]
      have : e.connects = false := by simp [SlotEnv.connects, hu']
      rw [this]; simp

theorem bwOpenWakeR_iff (e : BwEnv) (s : Led) :
    ((bwOpenWakeR e s).1.isSome = true ↔ e.WakeFine) ∧ (∀ w, (bwOpenWakeR e s).1 = some w → w.res.length = 1 + e.conns ∧ w.wait = none) := by
  unfold bwOpenWakeR BwEnv.WakeFine
  by_cases hc : e.callocOk = false
  · rw [if_pos hc]; simp [rm_pure, hc]
  rw [if_neg hc]
  simp only [rm_bind]
  obtain ⟨h1, h2⟩ := syncR_iff 64 e.slots (pruneR e.prune (acquire s).2).2
  generalize syncR (List.replicate 64 none) e.slots _ = q at h1 h2
  obtain ⟨⟨fds, ok⟩, s1⟩ := q
  dsimp only at h1 h2 ⊢
  rw [← h1]
  cases ok with
  | false => simp [rm_bind, rm_pure]
  | true =>
    simp only [Bool.true_eq_false, if_false, rm_pure, Option.isSome_some]
    refine ⟨by simpa using hc, ?_⟩
    rintro w e; cases e
    refine ⟨?_, rfl⟩
    unfold BwR.res
    dsimp only
    simp [h2 rfl, BwEnv.conns]
    omega

theorem bwOpenWaitR_iff (e : BwEnv) (s : Led) :
    ((bwOpenWaitR e s).1.isSome = true ↔ e.WaitFine) ∧ (∀ w, (bwOpenWaitR e s).1 = some w → w.res.length = 4 ∧ w.drain = none ∧ w.wait.isSome = true) := by
  unfold bwOpenWaitR BwEnv.WaitFine makeSocketR connectSelfR
  cases h1 : e.callocOk
  · simp [rm_pure]
  cases h2 : e.slotFree
  · simp [rm_pure, rm_bind]
  cases h3 : e.sockOk
  · simp [rm_pure, rm_bind]
  cases h4 : e.bindOk
  · simp [rm_pure, rm_bind]
  cases h5 : e.nameOk
  · simp [rm_pure, rm_bind]
  cases h6 : e.selfSockOk
  · simp [rm_pure, rm_bind]
  cases h7 : e.selfConnOk
  · simp [rm_pure, rm_bind]
  cases h8 : e.epollOk
  · simp [rm_pure, rm_bind]
  cases h9 : e.addOk
  · simp [rm_pure, rm_bind]
  refine ⟨by simp [rm_pure, rm_bind], ?_⟩
  simp only [rm_bind, rm_pure, Bool.true_eq_false, if_false, or_self]
  rintro w e; cases e
  exact ⟨rfl, rfl, rfl⟩

/-- What the reader's part of `open_blockwake` yields. -/
theorem blockwakeRdR_iff (e : OpenREnv) (s : Led) :
    ((blockwakeRdR e s).1.2.2 = true ↔ e.rdWait.WaitFine ∧ e.rdWake.WakeFine ∧ e.forceOk = true) ∧
    ((blockwakeRdR e s).1.2.2 = true → ∃ w r, (blockwakeRdR e s).1.1 = some w ∧ (blockwakeRdR e s).1.2.1 = some r ∧
      w.res.length = 4 + (if e.drains ∧ e.drainCallocOk then 1 else 0) ∧ r.res.length = 1 + e.rdWake.conns) := by
  unfold blockwakeRdR
  simp only [rm_bind]
  obtain ⟨h1, h2⟩ := bwOpenWaitR_iff e.rdWait s
  generalize bwOpenWaitR e.rdWait s = q at h1 h2
  obtain ⟨w, s1⟩ := q
  dsimp only at h1 h2 ⊢
  obtain ⟨g1, g2⟩ := bwOpenWakeR_iff e.rdWake s1
  generalize bwOpenWakeR e.rdWake s1 = q at g1 g2
  obtain ⟨r, s2⟩ := q
  dsimp only at g1 g2 ⊢
  rw [← h1, ← g1]
  cases w with
  | none => simp [rm_pure]
  | some w =>
    cases r with
    | none => simp [rm_pure]
    | some r =>
      obtain ⟨l1, l2, l3⟩ := h2 w rfl
      simp only [rm_bind, rm_pure, Option.isSome_some, true_and]
      refine fun _ => ⟨_, r, rfl, rfl, ?_, (g2 r rfl).1⟩
      unfold bwForceR
      obtain ⟨x, hx⟩ := Option.isSome_iff_exists.1 l3
      by_cases hd : e.drains = true ∧ e.drainCallocOk = true
      · simp only [hd.1, hd.2, l2, hx, rm_bind, rm_pure, ne_eq, reduceCtorEq, not_false_eq_true, and_self, if_true]
        rw [← l1]
        unfold BwR.res
        simp [hx, l2]
      · rw [if_neg hd, if_neg (by simp [hx, l2]; intro a; cases hb : e.drainCallocOk; rfl; exact absurd ⟨a, hb⟩ hd), rm_pure]
        exact l1

/-- What the writer's part of `open_blockwake` yields. -/
theorem blockwakeWrR_iff (flags gflags : Flags) (e : OpenREnv) (r2w : Option BwR) (s : Led) :
    ((blockwakeWrR flags gflags e r2w s).1.2.2 = true ↔
      e.wrWake.WakeFine ∧ (flags.has SHR_NONBLOCK = false → gflags.has SHR_DROP = false → e.wrWait.WaitFine)) ∧
    ((blockwakeWrR flags gflags e r2w s).1.2.2 = true → ∃ w, (blockwakeWrR flags gflags e r2w s).1.1 = some w ∧ w.res.length = 1 + e.wrWake.conns ∧
      (if flags.has SHR_NONBLOCK = false ∧ gflags.has SHR_DROP = false then
        ∃ r, (blockwakeWrR flags gflags e r2w s).1.2.1 = some r ∧ r.res.length = 4
      else (blockwakeWrR flags gflags e r2w s).1.2.1 = r2w)) := by
  unfold blockwakeWrR
  simp only [rm_bind]
  obtain ⟨h1, h2⟩ := bwOpenWakeR_iff e.wrWake s
  generalize bwOpenWakeR e.wrWake s = q at h1 h2
  obtain ⟨w, s1⟩ := q
  dsimp only at h1 h2 ⊢
  rw [← h1]
  cases w with
  | none => simp [rm_pure]
  | some w =>
    simp only [Option.isSome_some, true_and]
    by_cases hb : flags.has SHR_NONBLOCK = false ∧ gflags.has SHR_DROP = false
    · rw [if_pos hb]
      simp only [rm_bind, rm_pure, hb.1, hb.2, forall_const, and_self, if_true]
      obtain ⟨g1, g2⟩ := bwOpenWaitR_iff e.wrWait s1
      generalize bwOpenWaitR e.wrWait s1 = q at g1 g2
      obtain ⟨r, s2⟩ := q
      dsimp only at g1 g2 ⊢
      refine ⟨g1, fun h => ⟨w, rfl, (h2 w rfl).1, ?_⟩⟩
      obtain ⟨r', rfl⟩ := Option.isSome_iff_exists.1 h
      exact ⟨r', rfl, (g2 r' rfl).1⟩
    · rw [if_neg hb]
      simp only [rm_pure, if_neg hb, true_iff]
      exact ⟨fun a b => absurd ⟨a, b⟩ hb, fun _ => ⟨w, rfl, (h2 w rfl).1, trivial⟩⟩

/-- How many things a ring handle of this kind holds for waiting and waking: what is in the place of `w2r`, what in that of `r2w`. -/
def heldW2r (flags : Flags) (e : OpenREnv) : Nat :=
  if flags.has SHR_WRONLY then 1 + e.wrWake.conns
  else if flags.has SHR_RDONLY then 4 + (if e.drains ∧ e.drainCallocOk then 1 else 0) else 0
def heldR2w (flags gflags : Flags) (e : OpenREnv) : Nat :=
  if flags.has SHR_WRONLY = true ∧ flags.has SHR_NONBLOCK = false ∧ gflags.has SHR_DROP = false then 4
  else if flags.has SHR_RDONLY then 1 + e.rdWake.conns else 0

theorem blockwakeR_iff (flags gflags : Flags) (e : OpenREnv) (s : Led) :
    ((blockwakeR flags gflags e s).1.isSome = true ↔
      (flags.has SHR_RDONLY = true → e.rdWait.WaitFine ∧ e.rdWake.WakeFine ∧ e.forceOk = true) ∧
      (flags.has SHR_WRONLY = true → e.wrWake.WakeFine ∧ (flags.has SHR_NONBLOCK = false → gflags.has SHR_DROP = false → e.wrWait.WaitFine))) ∧
    (∀ w r, (blockwakeR flags gflags e s).1 = some (w, r) → (resOpt w).length = heldW2r flags e ∧ (resOpt r).length = heldR2w flags gflags e) := by
  unfold blockwakeR heldW2r heldR2w
  simp only [rm_bind]
  by_cases hr : flags.has SHR_RDONLY = true
  · simp only [hr, if_true, forall_const]
    obtain ⟨h1, h2⟩ := blockwakeRdR_iff e s
    generalize blockwakeRdR e s = q at h1 h2
    obtain ⟨⟨w, r, ok⟩, s1⟩ := q
    dsimp only at h1 h2 ⊢
    rw [← h1]
    cases ok with
    | false => simp [rm_bind, rm_pure]
    | true =>
      obtain ⟨w', r', rfl, rfl, l1, l2⟩ := h2 rfl
      by_cases hw : flags.has SHR_WRONLY = true
      · simp only [hw, and_self, if_true, true_and, forall_const]
        obtain ⟨g1, g2⟩ := blockwakeWrR_iff flags gflags e (some r') s1
        generalize blockwakeWrR flags gflags e (some r') s1 = q at g1 g2
        obtain ⟨⟨w2, r2, ok⟩, s2⟩ := q
        dsimp only at g1 g2 ⊢
        rw [← g1]
        cases ok with
        | false => simp [rm_bind, rm_pure]
        | true =>
          simp only [Bool.true_eq_false, if_false, rm_pure, Option.isSome_some, true_and]
          rintro w3 r3 e3; cases e3
          obtain ⟨w4, rfl, k1, k2⟩ := g2 rfl
          refine ⟨k1, ?_⟩
          by_cases hb : flags.has SHR_NONBLOCK = false ∧ gflags.has SHR_DROP = false
          · rw [if_pos hb] at k2 ⊢
            obtain ⟨r4, rfl, k3⟩ := k2
            exact k3
          · rw [if_neg hb] at k2 ⊢
            rw [k2]; exact l2
      · have hw' : flags.has SHR_WRONLY = false := by simpa using hw
        simp only [hw', Bool.false_eq_true, and_false, if_false, rm_pure, Bool.true_eq_false, Option.isSome_some, false_and, true_and]
        refine ⟨by simp, ?_⟩
        rintro w3 r3 e3; cases e3
        exact ⟨l1, l2⟩
  · have hr' : flags.has SHR_RDONLY = false := by simpa using hr
    simp only [hr', Bool.false_eq_true, if_false, rm_pure, true_and]
    by_cases hw : flags.has SHR_WRONLY = true
    · simp only [hw, if_true, true_and, forall_const]
      obtain ⟨g1, g2⟩ := blockwakeWrR_iff flags gflags e none s
      generalize blockwakeWrR flags gflags e none s = q at g1 g2
      obtain ⟨⟨w2, r2, ok⟩, s2⟩ := q
      dsimp only at g1 g2 ⊢
      rw [← g1]
      cases ok with
      | false => simp [rm_bind, rm_pure]
      | true =>
        simp only [Bool.true_eq_false, if_false, rm_pure, Option.isSome_some]
        refine ⟨by simp, ?_⟩
        rintro w3 r3 e3; cases e3
        obtain ⟨w4, rfl, k1, k2⟩ := g2 rfl
        refine ⟨k1, ?_⟩
        by_cases hb : flags.has SHR_NONBLOCK = false ∧ gflags.has SHR_DROP = false
        · rw [if_pos hb] at k2 ⊢
          obtain ⟨r4, rfl, k3⟩ := k2
          exact k3
        · rw [if_neg hb] at k2 ⊢
          rw [k2]; rfl
    · have hw' : flags.has SHR_WRONLY = false := by simpa using hw
      simp only [hw', Bool.false_eq_true, if_false, rm_pure, Bool.true_eq_false, Option.isSome_some, false_and]
      refine ⟨by simp, ?_⟩
      rintro w3 r3 e3; cases e3
      exact ⟨rfl, rfl⟩

theorem cacheR_iff (flags : Flags) (e : OpenREnv) (s : Led) :
    ((cacheR flags e s).1.isSome = true ↔ (flags.has SHR_WRONLY = true → flags.has SHR_BUFFERED = true → e.bufOk = true ∧ e.iovOk = true)) ∧
    (∀ b v, (cacheR flags e s).1 = some (b, v) →
      b.toList.length + v.toList.length = if flags.has SHR_WRONLY = true ∧ flags.has SHR_BUFFERED = true then 2 else 0) := by
  unfold cacheR
  cases hw : flags.has SHR_WRONLY <;> cases hb : flags.has SHR_BUFFERED <;> cases h1 : e.bufOk <;> cases h2 : e.iovOk <;>
    simp [rm_pure, rm_bind]
  all_goals rintro _ _ rfl rfl; rfl

/-- **C89.** `shr_open` succeeds exactly if its flags are valid and the system lets it. -/
theorem C89_open_succeeds (flags gflags : Flags) (e : OpenREnv) (s : Led) :
    (openR flags gflags e s).1.isSome = true ↔
      ((flags.has SHR_RDONLY = true ∨ flags.has SHR_WRONLY = true) ∧ ∀ b < 12, flags.getLsbD b = false) ∧ e.Fine flags gflags := by
  rw [← validate_flags_iff]
  unfold openR
  by_cases hv : validate_flags flags = false
  · rw [if_pos hv]; simp [rm_pure, hv]
  have hv' : validate_flags flags = true := by simpa using hv
  rw [if_neg hv]
  simp only [hv', true_and]
  constructor
  · intro h
    by_cases h1 : e.callocOk = false
    · rw [if_pos h1] at h; cases h
    rw [if_neg h1, rm_bind] at h
    by_cases h2 : e.openOk = false
    · rw [if_pos h2] at h; cases h
    rw [if_neg h2, rm_bind] at h
    by_cases h3 : e.fstatOk = false ∨ e.mmapOk = false
    · rw [if_pos h3] at h; cases h
    rw [if_neg h3, rm_bind] at h
    by_cases h4 : e.lockOk = false ∨ e.validOk = false ∨ (gflags.has SHR_MLOCK = true ∧ e.mlockOk = false)
    · rw [if_pos h4] at h; cases h
    rw [if_neg h4, rm_bind] at h
    obtain ⟨b1, _⟩ := blockwakeR_iff flags gflags e (acquire (acquire (acquire s).2).2).2
    generalize blockwakeR flags gflags e _ = q at b1 h
    obtain ⟨bw, s1⟩ := q
    dsimp only at b1 h
    cases bw with
    | none => cases h
    | some wr =>
      obtain ⟨w, r⟩ := wr
      dsimp only at h
      rw [rm_bind] at h
      obtain ⟨c1, _⟩ := cacheR_iff flags e s1
      generalize cacheR flags e s1 = q at c1 h
      obtain ⟨cb, s2⟩ := q
      dsimp only at c1 h
      cases cb with
      | none => cases h
      | some bv =>
        obtain ⟨b, v⟩ := bv
        dsimp only at h
        by_cases h5 : gflags.has SHR_SYNC = true ∧ e.syncOk = false
        · rw [if_pos h5] at h; cases h
        have b2 := b1.1 rfl
        have c2 := c1.1 rfl
        simp only [not_or, Bool.not_eq_false] at h1 h2 h3 h4
        refine ⟨⟨h1, h2, h3.1, h3.2, h4.1, h4.2.1⟩, ?_, b2.1, fun hw => (b2.2 hw).1, fun hw => (b2.2 hw).2, c2, ?_⟩
        · intro hm; have := h4.2.2; simpa [hm] using this
        · intro hm; simpa [hm] using h5
  · intro h
    obtain ⟨a1, a2, a3, a4, a5, a6⟩ := h.ring
    rw [if_neg (by simp [a1]), rm_bind, if_neg (by simp [a2]), rm_bind, if_neg (by simp [a3, a4]), rm_bind]
    rw [if_neg (by simp [a5, a6]; exact h.mlock), rm_bind]
    obtain ⟨b1, _⟩ := blockwakeR_iff flags gflags e (acquire (acquire (acquire s).2).2).2
    have b2 := b1.2 ⟨h.reader, fun hw => ⟨h.writer hw, h.waits hw⟩⟩
    generalize blockwakeR flags gflags e _ = q at b2
    obtain ⟨bw, s1⟩ := q
    dsimp only at b2 ⊢
    obtain ⟨⟨w, r⟩, rfl⟩ := Option.isSome_iff_exists.1 b2
    dsimp only
    rw [rm_bind]
    obtain ⟨c1, _⟩ := cacheR_iff flags e s1
    have c2 := c1.2 h.cache
    generalize cacheR flags e s1 = q at c2
    obtain ⟨cb, s2⟩ := q
    dsimp only at c2 ⊢
    obtain ⟨⟨b, v⟩, rfl⟩ := Option.isSome_iff_exists.1 c2
    dsimp only
    rw [if_neg (by simp; exact h.sync)]
    rfl

/-- **C89.** And then the handle holds exactly this number of descriptors, mappings and blocks of memory: three for itself, the descriptor and the
mapping of the ring; what it needs for waiting and for waking; and two if writes are buffered. -/
theorem C89_open_holds (flags gflags : Flags) (e : OpenREnv) (s : Led) (h : ShrR) (ho : (openR flags gflags e s).1 = some h) :
    h.flags = flags ∧
    h.res.length = 3 + heldW2r flags e + heldR2w flags gflags e + (if flags.has SHR_WRONLY = true ∧ flags.has SHR_BUFFERED = true then 2 else 0) := by
  unfold openR at ho
  by_cases hv : validate_flags flags = false
  · rw [if_pos hv] at ho; cases ho
  rw [if_neg hv] at ho
  by_cases h1 : e.callocOk = false
  · rw [if_pos h1] at ho; cases ho
  rw [if_neg h1, rm_bind] at ho
  by_cases h2 : e.openOk = false
  · rw [if_pos h2] at ho; cases ho
  rw [if_neg h2, rm_bind] at ho
  by_cases h3 : e.fstatOk = false ∨ e.mmapOk = false
  · rw [if_pos h3] at ho; cases ho
  rw [if_neg h3, rm_bind] at ho
  by_cases h4 : e.lockOk = false ∨ e.validOk = false ∨ (gflags.has SHR_MLOCK = true ∧ e.mlockOk = false)
  · rw [if_pos h4] at ho; cases ho
  rw [if_neg h4, rm_bind] at ho
  obtain ⟨_, b1⟩ := blockwakeR_iff flags gflags e (acquire (acquire (acquire s).2).2).2
  generalize blockwakeR flags gflags e _ = q at b1 ho
  obtain ⟨bw, s1⟩ := q
  dsimp only at b1 ho
  cases bw with
  | none => cases ho
  | some wr =>
    obtain ⟨w, r⟩ := wr
    dsimp only at ho
    rw [rm_bind] at ho
    obtain ⟨_, c1⟩ := cacheR_iff flags e s1
    generalize cacheR flags e s1 = q at c1 ho
    obtain ⟨cb, s2⟩ := q
    dsimp only at c1 ho
    cases cb with
    | none => cases ho
    | some bv =>
      obtain ⟨b, v⟩ := bv
      dsimp only at ho
      by_cases h5 : gflags.has SHR_SYNC = true ∧ e.syncOk = false
      · rw [if_pos h5] at ho; cases ho
      rw [if_neg h5, rm_pure] at ho
      cases ho
      obtain ⟨k1, k2⟩ := b1 w r rfl
      have k3 := c1 b v rfl
      refine ⟨rfl, ?_⟩
      unfold ShrR.res
      simp only [List.length_cons, List.length_append]
      omega

/-- **C89.** `shr_init` returns 0 exactly if its arguments are valid and either the ring is there and is to be kept, or every system call succeeds;
otherwise -1. -/
theorem C89_init (valid keeps unlinkOk openOk lockOk truncOk mmapOk : Bool) (s : Led) :
    (initR valid keeps unlinkOk openOk lockOk truncOk mmapOk s).1 =
      if valid = true ∧ (keeps = true ∨ (unlinkOk = true ∧ openOk = true ∧ lockOk = true ∧ truncOk = true ∧ mmapOk = true)) then 0 else -1 := by
  cases valid <;> cases keeps <;> cases unlinkOk <;> cases openOk <;> cases lockOk <;> cases truncOk <;> cases mmapOk <;> rfl

/-- A blocking buffered writer on a ring with three registered readers, of which one died: it connects to two, and holds
3 + (1 + 2) + 4 + 2 things. -/
def acqDemo : OpenREnv := { wrWake := { slots := [{}, { used := false }, { connOk := false, pid := { alive := false } }, {}] } }
example : ∃ h, (openR (SHR_WRONLY ||| SHR_BUFFERED) 0 acqDemo {}).1 = some h ∧ h.res.length = 12 := by
  have h1 : (openR (SHR_WRONLY ||| SHR_BUFFERED) 0 acqDemo {}).1.isSome = true := by
    refine (C89_open_succeeds ..).2 ⟨by decide, ?_⟩
    refine ⟨by decide, by decide, fun h => absurd h (by decide), fun _ => ⟨rfl, ?_⟩, fun _ _ _ => by unfold BwEnv.WaitFine; decide, by decide, by decide⟩
    intro s hs
    simp [acqDemo] at hs
    rcases hs with rfl | rfl | rfl | rfl
    · exact .inr ⟨rfl, .inl rfl⟩
    · exact .inl rfl
    · exact .inr ⟨rfl, .inr (.inl rfl)⟩
    · exact .inr ⟨rfl, .inl rfl⟩
  obtain ⟨h, hh⟩ := Option.isSome_iff_exists.1 h1
  exact ⟨h, hh, (C89_open_holds _ _ _ _ _ hh).2.trans (by decide +kernel)⟩

end Shr
