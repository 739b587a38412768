import Verif.Proof.WakeWoke
import Verif.Proof.WakeKill
import Verif.Proof.WakeQuiet
import Verif.Proof.ReadFrame
/-! # No lost wake-ups: C34 – C36, C55, C56 -/
namespace Shr

/-! ## Specification -/

/-- One step, whatever the operating system does.  `hist` lists the calls issued before, `ops` the block/wake calls made in the step.  The
premises are those of `Valid`: well-formed calls, and fewer than 2^64 messages on a farm ring. -/
structure AStep (a : InitArgs) (pid : Nat → Nat) (hist : List Op) (w : WSys) (x : WOp) (w' : WSys) (o : Out) (ops : List BOp) : Prop where
  wf : ∀ op os, x = .call op os → op.WF a.appsize
  count : a.flags.has SHR_FARM = true → (hist ++ x.issued w).length * offered (hist ++ x.issued w) < W
  step : WSys.Step pid w x w' o ops

/-- On a farm ring: the ring is left as `r`, in working order (C97), and the last store of the victim did not move the position of the eldest message (C96). -/
def WOp.leaves (pid : Nat → Nat) (w : WSys) (r : Ring) : WOp → Prop
  | .call op os => r.FarmSound ∧ ∃ j, CalmAt w.sys (w.fill pid os op) j r
  | .resume k env os => r.FarmSound ∧ ∀ op, w.blk k = some (op, true) → ∃ j, CalmAt w.sys (w.fill pid os (op.withEnv env)) j r
  | _ => True

/-- The process making the step `x` is killed while it does so (`WSys.Dies`: at any moment at which the control block is consistent; C33 says
which these are).  On a farm ring, at a moment at which it is in working order (C97 says which these are), and with fewer than 2^64 messages. -/
structure ADeath (a : InitArgs) (pid : Nat → Nat) (hist : List Op) (w : WSys) (x : WOp) (ops : List BOp) (w' : WSys) : Prop where
  wf : ∀ op os, x = .call op os → op.WF a.appsize
  count : a.flags.has SHR_FARM = true → (hist ++ x.issued w).length * offered (hist ++ x.issued w) + 2 * a.max_msgs < W
  calm : a.flags.has SHR_FARM = true → x.leaves pid w w'.sys.ring
  dies : WSys.Dies pid w x ops w'

/-- All states reachable from a new ring: any number of processes, calls, waits and deaths, also inside calls, any failures of system calls. -/
inductive AReach (a : InitArgs) (pid : Nat → Nat) : List Op → WSys → Prop where
  | init : a.WF → AReach a pid [] (WSys.init a)
  | step {hist : List Op} {w w' : WSys} {x : WOp} {o : Out} {ops : List BOp} : AReach a pid hist w → AStep a pid hist w x w' o ops →
      AReach a pid (hist ++ x.issued w) w'
  | dies {hist : List Op} {w w' : WSys} {x : WOp} {ops : List BOp} : AReach a pid hist w → ADeath a pid hist w x ops w' →
      AReach a pid (hist ++ x.issued w) w'

/-- The states reachable by clean steps (`BSys.Clean`: the kernel does not reuse a name to which a waker is connected, and `sendmsg` to an
open socket does not fail except for a full queue).  Every other system call may fail, and processes may die inside calls. -/
inductive CReach (a : InitArgs) (pid : Nat → Nat) : List Op → WSys → Prop where
  | init : a.WF → CReach a pid [] (WSys.init a)
  | step {hist : List Op} {w w' : WSys} {x : WOp} {o : Out} {ops : List BOp} : CReach a pid hist w → AStep a pid hist w x w' o ops →
      w.b.CleanRun ops → CReach a pid (hist ++ x.issued w) w'
  | dies {hist : List Op} {w w' : WSys} {x : WOp} {ops : List BOp} : CReach a pid hist w → ADeath a pid hist w x ops w' → w.b.CleanRun ops →
      CReach a pid (hist ++ x.issued w) w'

/-- For those who wait on the embedded handle `c` nothing has become better from `w` to `w'`: if there is something to read through an open handle, there was before (`c` = 0),
and what fits into the ring did fit before (`c` = 1). -/
def NothingNew (c : Nat) (w w' : WSys) : Prop :=
  (c = 0 → ∀ k hd, w'.sys.hs k = .live hd → w'.sys.ring.readableBy hd ≠ [] → w.sys.ring.readableBy hd ≠ []) ∧
  (c = 1 → ∀ new, Fits w.sys.ring.n w.sys.ring.mm w'.sys.ring.unreadMsgs new → Fits w.sys.ring.n w.sys.ring.mm w.sys.ring.unreadMsgs new)

/-- The states reachable by clean steps, in which since the beginning, or since some successful `bw_wake` through the embedded handle `c`, none of the
block/wake calls selected by `S` has failed (except inside `shr_open`, which then fails itself), and no process has died inside a call
that had already changed the ring in favour of those who wait on `c`. -/
inductive Announced (a : InitArgs) (pid : Nat → Nat) (c : Nat) (S : BOp → Bool) : List Op → WSys → Prop where
  | init : a.WF → Announced a pid c S [] (WSys.init a)
  | keeps {hist : List Op} {w w' : WSys} {x : WOp} {o : Out} {ops : List BOp} : Announced a pid c S hist w → AStep a pid hist w x w' o ops →
      w.b.CleanRun ops → (x.isOpen = false → w.b.Succeed S ops) → Announced a pid c S (hist ++ x.issued w) w'
  | dies {hist : List Op} {w w' : WSys} {x : WOp} {ops : List BOp} : Announced a pid c S hist w → ADeath a pid hist w x ops w' → w.b.CleanRun ops →
      NothingNew c w w' → Announced a pid c S (hist ++ x.issued w) w'
  | renews {hist : List Op} {w w' : WSys} {x : WOp} {o : Out} {ops : List BOp} : CReach a pid hist w → AStep a pid hist w x w' o ops →
      w.b.CleanRun ops → w.b.Woke c ops → Announced a pid c S (hist ++ x.issued w) w'

/-- A sequence of clean steps that satisfy `P`, and of clean steps inside which the process that makes them is killed and that satisfy `D`. -/
inductive CPath (a : InitArgs) (pid : Nat → Nat) (P : WSys → WOp → List BOp → Prop) (D : WSys → WOp → Prop) : List Op → WSys → List Op → WSys → Prop where
  | refl (hist : List Op) (w : WSys) : CPath a pid P D hist w hist w
  | step {hist hist1 : List Op} {w w1 w2 : WSys} {x : WOp} {o : Out} {ops : List BOp} : CPath a pid P D hist w hist1 w1 →
      AStep a pid hist1 w1 x w2 o ops → w1.b.CleanRun ops → P w1 x ops → CPath a pid P D hist w (hist1 ++ x.issued w1) w2
  | dies {hist hist1 : List Op} {w w1 w2 : WSys} {x : WOp} {ops : List BOp} : CPath a pid P D hist w hist1 w1 →
      ADeath a pid hist1 w1 x ops w2 → w1.b.CleanRun ops → D w1 x → CPath a pid P D hist w (hist1 ++ x.issued w1) w2

/-- The messages that a waiting write, flush or close wants to put into the ring. -/
def Sys.wants (s : Sys) : Op → List Msg
  | .writev _ iov _ _ => iov
  | op => s.cached op.handle

/-! ## Every step keeps the invariant -/

theorem count_bound {F : Prop} {sp : Spec} {hist : List Op} {op : Op} (h1 : PendLe sp (offered hist)) (h2 : F → sp.log.length ≤ hist.length * offered hist) :
    (F → (sp.step op).1.log.length ≤ (hist ++ [op]).length * offered (hist ++ [op])) ∧ PendLe (sp.step op).1 (offered (hist ++ [op])) := by
  obtain ⟨g1, g2⟩ := step_count h1 op
  rw [offered_append]
  refine ⟨fun hF => Nat.le_trans g1 ?_, g2⟩
  have h2 := h2 hF
  simp only [List.length_append, List.length_cons, List.length_nil, Nat.zero_add, Nat.add_mul, Nat.one_mul, Nat.mul_add]
  omega

theorem withEnv_wf {op : Op} {e : Env} {n : Nat} : (op.withEnv e).WF n ↔ op.WF n := by
  cases op <;> exact Iff.rfl
theorem offered_withEnv (op : Op) (e : Env) : offered [op.withEnv e] = offered [op] := by
  cases op <;> rfl
theorem withEnv_open {op : Op} {e : Env} (h : ∀ k flags env, op ≠ .open k flags env) : ∀ k flags env, op.withEnv e ≠ .open k flags env := by
  cases op <;> simp [Op.withEnv] at h ⊢
theorem withEnv_handle (op : Op) (e : Env) : (op.withEnv e).handle = op.handle := by cases op <;> rfl
theorem withEnv_writes (op : Op) (e : Env) : (op.withEnv e).writes = op.writes := by cases op <;> rfl

theorem suspended_op {sp : Spec} {sh : SHandle} {op : Op} (h : Suspended sp sh op) : ∀ k flags env, op ≠ .open k flags env := by
  rintro k flags env rfl
  rcases h with ⟨⟨_, _, _, _, e⟩, _⟩ | ⟨e, _⟩ <;> cases e

theorem farm_flag {a : InitArgs} {sp : Spec} (h : sp.gflags = a.gflags) (hf : sp.farm = true) : a.flags.has SHR_FARM = true := by
  unfold Spec.farm at hf; rw [h, gflags_farm] at hf; exact hf

theorem init_tinv {a : InitArgs} (h : a.WF) (pid : Nat → Nat) : TInv a pid (WSys.init a) (Spec.init a) := by
  constructor
  case rel => exact init_rel a h
  case cap => rfl
  case maxm => rfl
  case gf => rfl
  case app =>
    show (if a.flags.has SHR_APPDATA_1 then a.app else []).length = a.appsize
    unfold InitArgs.appsize; split <;> rfl
  case blk => intro k op b hb; cases hb
  all_goals intro k sh hk; cases hk

/-- The state represents a specification state, and the bounds on the number of messages. -/
structure Repr (a : InitArgs) (pid : Nat → Nat) (hist : List Op) (w : WSys) (sp : Spec) : Prop where
  inv : TInv a pid w sp
  pend : PendLe sp (offered hist)
  len : a.flags.has SHR_FARM = true → sp.log.length ≤ hist.length * offered hist

theorem isOpen_call {op : Op} {os : WOs} (h : ∀ k flags env, op ≠ .open k flags env) : (WOp.call op os).isOpen = false := by
  cases op <;> first | rfl | exact absurd rfl (h _ _ _)

theorem astep_runs {pid : Nat → Nat} {w w' : WSys} {x : WOp} {o : Out} {ops : List BOp} (h : WSys.Step pid w x w' o ops) : w'.b = w.b.runs ops := by
  cases h with
  | call _ h => unfold WSys.attempt at h; split at h <;> cases h; rfl
  | wakeup => rfl
  | resume _ h => unfold WSys.attempt at h; split at h <;> cases h; rfl
  | interrupt _ h => rfl
  | kill => rfl

theorem astep_inv {a : InitArgs} {pid : Nat → Nat} {hist : List Op} {w w' : WSys} {x : WOp} {o : Out} {ops : List BOp} {sp : Spec}
    (h : Repr a pid hist w sp) (hs : AStep a pid hist w x w' o ops) :
    ∃ sp', Repr a pid (hist ++ x.issued w) w' sp' ∧ (BInv w.b ∧ w.b.CleanRun ops →
      (∀ k P, ((x.isOpen = false → w.b.Succeed (BOp.wakes 0) ops) ∧ (P → x.isOpen = false → w.b.Succeed (BOp.forces (2 * k)) ops) ∧ J1 w sp k P) ∨ w.b.Woke 0 ops →
        J1 w' sp' k P) ∧
      (∀ k, ((x.isOpen = false → w.b.Succeed (BOp.wakes 1) ops) ∧ J2 w sp k) ∨ w.b.Woke 1 ops → J2 w' sp' k)) := by
  obtain ⟨hw, hp, hl⟩ := h
  obtain ⟨hwf, hfarm, hst⟩ := hs
  -- the bound on the log, for an attempt of `op` whose filled-in form is `fop`
  have hbound : ∀ (op : Op) (os : WOs), x.issued w = [op] ∨ (∃ op0 e, x.issued w = [op0] ∧ op = op0.withEnv e) →
      (sp.farm = true → (sp.step (w.fill pid os op)).1.log.length < W) ∧
      (a.flags.has SHR_FARM = true → (sp.step (w.fill pid os op)).1.log.length ≤ (hist ++ x.issued w).length * offered (hist ++ x.issued w)) ∧
      PendLe (sp.step (w.fill pid os op)).1 (offered (hist ++ x.issued w)) := by
    intro op os hi
    obtain ⟨g1, g2⟩ := count_bound (op := w.fill pid os op) hp hl
    have ho : offered [w.fill pid os op] = offered (x.issued w) ∧ (x.issued w).length = 1 := by
      rw [offered_fill]
      rcases hi with hi | ⟨op0, e, hi, rfl⟩
      · rw [hi]; exact ⟨rfl, rfl⟩
      · rw [hi, offered_withEnv]; exact ⟨rfl, rfl⟩
    rw [offered_append, ho.1, ← offered_append] at g1 g2
    have hlen : (hist ++ [w.fill pid os op]).length = (hist ++ x.issued w).length := by simp [ho.2]
    rw [hlen] at g1
    exact ⟨fun hf => Nat.lt_of_le_of_lt (g1 (farm_flag hw.gf hf)) (hfarm (farm_flag hw.gf hf)), g1, g2⟩
  -- an attempt of a call other than `shr_open`
  have att : ∀ (op : Op) (os : WOs), (∀ k flags env, op ≠ .open k flags env) → op.WF a.appsize →
      (∀ k iov e1 e2 sh, op = .writev k iov e1 e2 → sp.hs k = .live sh → sh.flags.has SHR_WRONLY = true → NoFlush sp sh iov) →
      (x.issued w = [op] ∨ (∃ op0 e, x.issued w = [op0] ∧ op = op0.withEnv e)) → x.isOpen = false → w.attempt pid op os = some (w', o, ops) →
      ∃ sp', Repr a pid (hist ++ x.issued w) w' sp' ∧ (BInv w.b ∧ w.b.CleanRun ops →
        (∀ k P, ((x.isOpen = false → w.b.Succeed (BOp.wakes 0) ops) ∧ (P → x.isOpen = false → w.b.Succeed (BOp.forces (2 * k)) ops) ∧ J1 w sp k P) ∨ w.b.Woke 0 ops →
          J1 w' sp' k P) ∧
        (∀ k, ((x.isOpen = false → w.b.Succeed (BOp.wakes 1) ops) ∧ J2 w sp k) ∨ w.b.Woke 1 ops → J2 w' sp' k)) := by
    intro op os hno hwf hnf hiss hop hat
    obtain ⟨b1, b2, b3⟩ := hbound op os hiss
    obtain ⟨t1, t2⟩ := attempt_inv hw hno hwf hnf b1 hat
    refine ⟨_, ⟨t1, b3, b2⟩, fun hC => ⟨fun k P h => ?_, fun k h => ?_⟩⟩
    · rcases h with ⟨h1, h2, h3⟩ | h
      · exact (t2 hC).1 k P (h1 hop) (fun hP => h2 hP hop) h3
      · exact woke_j1 hw hno hat hC.1 hC.2 t1.rel h k P
    · rcases h with ⟨h1, h3⟩ | h
      · exact (t2 hC).2 k (h1 hop) h3
      · exact woke_j2 hw hno hat hC.1 hC.2 t1 h k
  -- steps without wake-ups
  have qt : ∀ {sp'}, Repr a pid (hist ++ x.issued w) w' sp' → (BInv w.b ∧ w.b.CleanRun ops → Keeps w sp w' sp') →
      (∀ y ∈ ops, ∀ j os, y ≠ .wake j os) → ∃ sp', Repr a pid (hist ++ x.issued w) w' sp' ∧ (BInv w.b ∧ w.b.CleanRun ops →
        (∀ k P, ((x.isOpen = false → w.b.Succeed (BOp.wakes 0) ops) ∧ (P → x.isOpen = false → w.b.Succeed (BOp.forces (2 * k)) ops) ∧ J1 w sp k P) ∨ w.b.Woke 0 ops →
          J1 w' sp' k P) ∧
        (∀ k, ((x.isOpen = false → w.b.Succeed (BOp.wakes 1) ops) ∧ J2 w sp k) ∨ w.b.Woke 1 ops → J2 w' sp' k)) := by
    intro sp' hr hk hn
    refine ⟨sp', hr, fun hC => ⟨fun k P h => ?_, fun k h => ?_⟩⟩
    · rcases h with ⟨_, _, h3⟩ | h
      · exact (hk hC).1 k P h3
      · exact absurd h (not_woke hn)
    · rcases h with ⟨_, h3⟩ | h
      · exact (hk hC).2 k h3
      · exact absurd h (not_woke hn)
  cases hst with
  | call hca hat =>
    rename_i op os
    have hwf := hwf op os rfl
    by_cases hop : ∃ k flags env, op = .open k flags env
    · obtain ⟨k, flags, env, rfl⟩ := hop
      obtain ⟨b1, b2, b3⟩ := hbound (.open k flags env) os (.inl rfl)
      obtain ⟨t1, t2⟩ := open_inv hw hwf hca b1 hat
      refine qt ⟨t1, b3, b2⟩ t2 ?_
      have hops : ops = w.bops pid os o (w.fill pid os (.open k flags env)) := by
        unfold WSys.attempt at hat; split at hat <;> cases hat; rfl
      intro y hy j os' e
      subst e
      rw [hops] at hy
      simp only [WSys.fill] at hy
      unfold WSys.bops at hy; dsimp only at hy
      split at hy
      · unfold open_blockwake at hy
        dsimp only at hy
        repeat' split at hy
        all_goals simp at hy
      · cases hy
    · have hno : ∀ k flags env, op ≠ .open k flags env := fun k flags env e => hop ⟨k, flags, env, e⟩
      refine att op os hno hwf ?_ (.inl rfl) (isOpen_call hno) hat
      rintro k iov e1 e2 sh rfl hk hwo
      have hr := hw.rel.hs k
      rw [hk] at hr
      cases e : w.sys.hs k with
      | never => rw [e] at hr; exact hr.elim
      | gone b => rw [e] at hr; exact hr.elim
      | live hd =>
        rw [e] at hr
        refine noFlush_of (k := k) (e1 := e1) (e2 := e2) hw.rel.ring hr hwo hwf ?_
        rw [← e]; exact hca.2.1
  | wakeup hb h1 h2 =>
    rename_i k op os
    obtain ⟨t1, t2⟩ := inv_wakeup (os := os) hw hb
    refine qt ⟨t1, ?_, ?_⟩ (fun hC => t2 hC.1) ?_
    · simpa [WOp.issued] using hp
    · simpa [WOp.issued] using hl
    · intro y hy; simp only [List.mem_singleton] at hy; subst hy; intro _ _ e; cases e
  | resume hb hat =>
    rename_i k op env os
    have hiss : (WOp.resume k env os).issued w = [op] := by unfold WOp.issued; dsimp only; rw [hb]
    obtain ⟨e1, e2, sh, e3, e4⟩ := hw.blk k op true hb
    refine att (op.withEnv env) os (withEnv_open (suspended_op e4)) (withEnv_wf.2 e2) ?_ (.inr ⟨op, env, hiss, rfl⟩) rfl hat
    intro k' iov f1 f2 sh' he hk' _
    rcases e4 with ⟨⟨_, _, _, _, rfl⟩, _⟩ | ⟨_, _, _, _, hnf⟩
    · cases he
    · cases op <;> simp only [Op.withEnv] at he <;> cases he
      cases e1
      have e3 : sp.hs k' = .live sh := e3
      rw [hk'] at e3; cases e3
      exact (hnf _ _ _ _ rfl).1
  | interrupt hb ho =>
    rename_i k op e os
    obtain ⟨t1, t2⟩ := inv_interrupt hw hb ho rfl
    refine qt ⟨t1, ?_, ?_⟩ t2 ?_
    · have : PendLe sp (offered (hist ++ (WOp.interrupt k e os).issued w)) := by simpa [WOp.issued] using hp
      split
      · exact pendLe_discard this _
      · exact this
    · have : a.flags.has SHR_FARM = true → sp.log.length ≤ (hist ++ (WOp.interrupt k e os).issued w).length * offered (hist ++ (WOp.interrupt k e os).issued w) := by
        simpa [WOp.issued] using hl
      split
      · exact this
      · exact this
    · intro y hy
      rw [ho] at hy
      split at hy
      · simp only [List.mem_cons, List.not_mem_nil, or_false] at hy
        rcases hy with rfl | rfl <;> (intro _ _ e; cases e)
      · cases hy
  | kill =>
    rename_i p
    obtain ⟨t1, t2⟩ := inv_kill hw p rfl
    refine qt ⟨t1, ?_, ?_⟩ t2 ?_
    · have : PendLe sp (offered (hist ++ (WOp.kill p).issued w)) := by simpa [WOp.issued] using hp
      exact pendLe_discard this _
    · have : a.flags.has SHR_FARM = true → sp.log.length ≤ (hist ++ (WOp.kill p).issued w).length * offered (hist ++ (WOp.kill p).issued w) := by
        simpa [WOp.issued] using hl
      exact this
    · intro y hy; simp only [List.mem_singleton] at hy; subst hy; intro _ _ e; cases e

/-- A death inside a call keeps the invariant. -/
theorem death_inv {a : InitArgs} {pid : Nat → Nat} {hist : List Op} {w w' : WSys} {x : WOp} {ops : List BOp} {sp : Spec} (h : Repr a pid hist w sp)
    (hd : ADeath a pid hist w x ops w') : ∃ sp', Repr a pid (hist ++ x.issued w) w' sp' ∧ (BInv w.b ∧ w.b.CleanRun ops → BInv w'.b ∧
      (NothingNew 0 w w' → ∀ k P, J1 w sp k P → J1 w' sp' k P) ∧ (NothingNew 1 w w' → ∀ k, J2 w sp k → J2 w' sp' k)) := by
  obtain ⟨hw, hp, hl⟩ := h
  obtain ⟨r, b', hcp⟩ := hd.dies.corpse hw hd.wf
  have hring : w'.sys.ring = r := by rw [hcp.eq]; rfl
  have hoff : offered hist ≤ offered (hist ++ x.issued w) := by rw [offered_append]; omega
  have key : ∃ sp', Rel { ring := r, hs := (w.sys.discard (fun j => pid j == pid x.actor)).hs } sp' ∧ sp'.hs = (sp.discard (fun j => pid j == pid x.actor)).hs ∧
      sp'.cap = sp.cap ∧ sp'.maxm = sp.maxm ∧ sp'.gflags = sp.gflags ∧ sp'.app.length = sp.app.length ∧
      (a.flags.has SHR_FARM = true → sp'.log.length ≤ (hist ++ x.issued w).length * offered (hist ++ x.issued w)) := by
    cases e : sp.farm with
    | false =>
      obtain ⟨sp', g1, g2, _, g4⟩ := corpse_rel hw.rel e hcp.framed hcp.cons (fun j => pid j == pid x.actor)
      refine ⟨sp', g1, g2, g4.1, g4.2.1, g4.2.2.1, g4.2.2.2, fun hf => ?_⟩
      unfold Spec.farm at e; rw [hw.gf, gflags_farm, hf] at e; cases e
    | true =>
      have hf := farm_flag hw.gf e
      have hcount := hd.count hf
      have hl := hl hf
      have still : w.sys.ring = r → x.issued w = [] → ∃ sp', Rel { ring := r, hs := (w.sys.discard (fun j => pid j == pid x.actor)).hs } sp' ∧
          sp'.hs = (sp.discard (fun j => pid j == pid x.actor)).hs ∧ sp'.cap = sp.cap ∧ sp'.maxm = sp.maxm ∧ sp'.gflags = sp.gflags ∧
          sp'.app.length = sp.app.length ∧
          (a.flags.has SHR_FARM = true → sp'.log.length ≤ (hist ++ x.issued w).length * offered (hist ++ x.issued w)) := by
        intro h1 h2
        refine ⟨sp.discard _, ?_, rfl, rfl, rfl, rfl, rfl, fun _ => ?_⟩
        · have := rel_discard hw.rel (fun j => pid j == pid x.actor)
          rw [← h1]; exact this
        · rw [h2, List.append_nil]; exact hl
      have call : ∀ {op : Op} {os : WOs}, op.WF a.appsize → (x.issued w).length = 1 → offered [op] = offered (x.issued w) → r.FarmSound →
          (∃ j, CalmAt w.sys (w.fill pid os op) j r) → ∃ sp', Rel { ring := r, hs := (w.sys.discard (fun j => pid j == pid x.actor)).hs } sp' ∧
          sp'.hs = (sp.discard (fun j => pid j == pid x.actor)).hs ∧ sp'.cap = sp.cap ∧ sp'.maxm = sp.maxm ∧ sp'.gflags = sp.gflags ∧
          sp'.app.length = sp.app.length ∧
          (a.flags.has SHR_FARM = true → sp'.log.length ≤ (hist ++ x.issued w).length * offered (hist ++ x.issued w)) := by
        intro op os hwf h1 h2 hs ⟨j, hc⟩
        have hbd : sp.log.length + offered hist + offered (x.issued w) ≤ (hist ++ x.issued w).length * offered (hist ++ x.issued w) := by
          rw [offered_append, List.length_append, h1]
          simp only [Nat.add_mul, Nat.one_mul, Nat.mul_add]
          omega
        obtain ⟨sp', g1, g2, g3, g4, g5, g6, g7⟩ := farm_corpse hw.rel e hw.cap hw.maxm hw.gf hw.app (fill_wf.2 hwf) (by omega) hp hc hs
          (fun j => pid j == pid x.actor)
        refine ⟨sp', g1, g2, g3, g4, g5, g6, fun _ => Nat.le_trans g7 ?_⟩
        rw [offered_fill, h2]; exact hbd
      have hcalm := hd.calm hf
      rw [hring] at hcalm
      have hdies := hd.dies
      have hwf := hd.wf
      cases hdies with
      | call hca hat hr hc hcut => exact call (hwf _ _ rfl) rfl rfl hcalm.1 hcalm.2
      | resume hb hat hr hc hcut =>
        rename_i k op env os o r b'
        have hiss : (WOp.resume k env os).issued w = [op] := by unfold WOp.issued; dsimp only; rw [hb]
        obtain ⟨_, e2, _⟩ := hw.blk _ _ _ hb
        exact call (op := op.withEnv env) (os := os) (withEnv_wf.2 e2) (by rw [hiss]; rfl) (by rw [hiss, offered_withEnv]) hcalm.1 (hcalm.2 op hb)
      | wakeup hb hcut => exact still hring rfl
      | interrupt hb ho hcut => exact still hring rfl
  obtain ⟨sp', h1, h2, h3, h4, h5, h6, h7⟩ := key
  obtain ⟨g1, g2⟩ := corpse_inv hw hcp h1 h2 h3 h4 h5 h6
  refine ⟨sp', ⟨g1, ?_, h7⟩, fun hC => ?_⟩
  · intro j sh hj
    rw [h2] at hj
    exact Nat.le_trans (hp j sh (discard_live.1 hj).1) hoff
  · obtain ⟨f1, f2, f3⟩ := g2 hC
    refine ⟨f1, fun hn => f2 ?_, fun hn => f3 ?_⟩
    · have := hn.1 rfl
      rw [hring] at this; exact this
    · have := hn.2 rfl
      rw [hring, hw.rel.ring.n, hw.rel.ring.mm] at this; exact this

theorem AReach.state {a : InitArgs} {pid : Nat → Nat} {hist : List Op} {w : WSys} (h : AReach a pid hist w) : ∃ sp, Repr a pid hist w sp := by
  induction h with
  | init h => exact ⟨_, init_tinv h pid, fun k sh hk => (by cases hk), fun _ => Nat.le_of_eq rfl⟩
  | step _ hs ih =>
    obtain ⟨sp, ih⟩ := ih
    obtain ⟨sp', h, _⟩ := astep_inv ih hs
    exact ⟨sp', h⟩
  | dies _ hd ih =>
    obtain ⟨sp, ih⟩ := ih
    obtain ⟨sp', h, _⟩ := death_inv ih hd
    exact ⟨sp', h⟩

theorem CReach.any {a : InitArgs} {pid : Nat → Nat} {hist : List Op} {w : WSys} (h : CReach a pid hist w) : AReach a pid hist w := by
  induction h with
  | init h => exact .init h
  | step _ hs _ ih => exact .step ih hs
  | dies _ hd _ ih => exact .dies ih hd

theorem CReach.breach {a : InitArgs} {pid : Nat → Nat} {hist : List Op} {w : WSys} (h : CReach a pid hist w) : BInv w.b := by
  induction h with
  | init h => exact BInv.init
  | step _ hs hc ih => rw [astep_runs hs.step]; exact ih.runs hc
  | dies h hd hc ih =>
    obtain ⟨sp, hr⟩ := h.any.state
    obtain ⟨_, _, g⟩ := death_inv hr hd
    exact (g ⟨ih, hc⟩).1

theorem Announced.clean {a : InitArgs} {pid : Nat → Nat} {c : Nat} {S : BOp → Bool} {hist : List Op} {w : WSys} (h : Announced a pid c S hist w) :
    CReach a pid hist w := by
  induction h with
  | init h => exact .init h
  | keeps _ hs hc _ ih => exact .step ih hs hc
  | dies _ hd hc _ ih => exact .dies ih hd hc
  | renews h hs hc _ => exact .step h hs hc

theorem Succeed.mono {S T : BOp → Bool} (hST : ∀ x, T x = true → S x = true) : ∀ {ops : List BOp} {b : BSys}, b.Succeed S ops → b.Succeed T ops
  | [], _, _ => trivial
  | _ :: _, _, h => ⟨fun e => h.1 (hST _ e), Succeed.mono hST h.2⟩

/-- Readers. -/
theorem Announced.readers {a : InitArgs} {pid : Nat → Nat} {S : BOp → Bool} {hist : List Op} {w : WSys} (h : Announced a pid 0 S hist w) {k : Nat} {P : Prop}
    (hS : ∀ x, BOp.wakes 0 x = true → S x = true) (hP : P → ∀ x, BOp.forces (2 * k) x = true → S x = true) :
    ∃ sp, Repr a pid hist w sp ∧ J1 w sp k P := by
  induction h with
  | init h => exact ⟨_, ⟨init_tinv h pid, fun k sh hk => (by cases hk), fun _ => Nat.le_of_eq rfl⟩, fun sh hk => (by cases hk)⟩
  | keeps h hs hc hok ih =>
    obtain ⟨sp, h1, h2⟩ := ih
    obtain ⟨sp', g1, g2⟩ := astep_inv h1 hs
    exact ⟨sp', g1, (g2 ⟨h.clean.breach, hc⟩).1 k P (.inl ⟨fun e => Succeed.mono hS (hok e), fun p e => Succeed.mono (hP p) (hok e), h2⟩)⟩
  | dies h hd hc hn ih =>
    obtain ⟨sp, h1, h2⟩ := ih
    obtain ⟨sp', g1, g2⟩ := death_inv h1 hd
    exact ⟨sp', g1, (g2 ⟨h.clean.breach, hc⟩).2.1 hn k P h2⟩
  | renews h hs hc hok =>
    obtain ⟨sp, h1⟩ := h.any.state
    obtain ⟨sp', g1, g2⟩ := astep_inv h1 hs
    exact ⟨sp', g1, (g2 ⟨h.breach, hc⟩).1 k P (.inr hok)⟩

/-- Writers. -/
theorem Announced.writers {a : InitArgs} {pid : Nat → Nat} {hist : List Op} {w : WSys} (h : Announced a pid 1 (BOp.wakes 1) hist w) (k : Nat) :
    ∃ sp, Repr a pid hist w sp ∧ J2 w sp k := by
  induction h with
  | init h => exact ⟨_, ⟨init_tinv h pid, fun k sh hk => (by cases hk), fun _ => Nat.le_of_eq rfl⟩, fun op sh hb => (by cases hb)⟩
  | keeps h hs hc hok ih =>
    obtain ⟨sp, h1, h2⟩ := ih
    obtain ⟨sp', g1, g2⟩ := astep_inv h1 hs
    exact ⟨sp', g1, (g2 ⟨h.clean.breach, hc⟩).2 k (.inl ⟨hok, h2⟩)⟩
  | dies h hd hc hn ih =>
    obtain ⟨sp, h1, h2⟩ := ih
    obtain ⟨sp', g1, g2⟩ := death_inv h1 hd
    exact ⟨sp', g1, (g2 ⟨h.clean.breach, hc⟩).2.2 hn k h2⟩
  | renews h hs hc hok =>
    obtain ⟨sp, h1⟩ := h.any.state
    obtain ⟨sp', g1, g2⟩ := astep_inv h1 hs
    exact ⟨sp', g1, (g2 ⟨h.breach, hc⟩).2 k (.inr hok)⟩

/-! ## C34, C35, C55, C56 -/

/-- **C34.** A reader that is suspended in a read, with no datagram pending at its socket, has nothing to read.
Missing: the time from a failing `bw_wake` of a writer, or a writer's death between commit and `bw_wake`, to the next successful one
(`C34_counterexample_failed_wake`, `C85_counterexample_no_wake`), and steps that are not clean
(`C40_counterexample_name_reuse`). -/
theorem C34_blocked_reader_partial {a : InitArgs} {pid : Nat → Nat} {hist : List Op} {w : WSys} (h : Announced a pid 0 (BOp.wakes 0) hist w)
    {k : Nat} {hd : Handle} (hk : w.sys.hs k = .live hd) {buf : List Byte} {niov : Nat} {env : Env}
    (hb : w.blk k = some (.readv k buf niov env, false)) (hp : w.b.pending (2 * k) = 0) : w.sys.ring.readableBy hd = [] := by
  obtain ⟨sp, ⟨hw, _, _⟩, hj⟩ := h.readers (k := k) (P := False) (fun _ e => e) (fun e => e.elim)
  obtain ⟨sh, e1, e2⟩ := hw.rel.live hk
  rw [readableBy_eq hw.rel.ring e2]
  obtain ⟨_, _, sh', g1, g2⟩ := hw.blk _ _ _ hb
  rw [e1] at g1; cases g1
  rcases g2 with ⟨_, g2, _⟩ | ⟨g2, _⟩
  · by_cases hne : sp.readable sh = []
    · exact hne
    · have := hj sh e1 g2 (.inr ⟨_, hb⟩) hne
      omega
  · cases g2

/-- **C35.** A writer that is suspended in a write, flush or close, with no datagram pending at its socket, lacks space for what
it wants to write.  Missing: the time from a failing `bw_wake` of a reader (`C35_counterexample_failed_wake`), or a reader's death before it,
to the next successful one, and steps that are not clean. -/
theorem C35_blocked_writer_partial {a : InitArgs} {pid : Nat → Nat} {hist : List Op} {w : WSys} (h : Announced a pid 1 (BOp.wakes 1) hist w)
    {k : Nat} {op : Op} (hb : w.blk k = some (op, false)) (hwr : ∀ buf niov env, op ≠ .readv k buf niov env)
    (hp : w.b.pending (2 * k + 1) = 0) : ¬ Fits w.sys.ring.n w.sys.ring.mm w.sys.ring.unreadMsgs (w.sys.wants op) := by
  obtain ⟨sp, ⟨hw, _, _⟩, hj2⟩ := h.writers k
  obtain ⟨e0, _, sh, e1, e2⟩ := hw.blk _ _ _ hb
  have hwrt : op.writes = true := by
    rcases e2 with ⟨⟨k', buf, niov, env, rfl⟩, _⟩ | ⟨e2, _⟩
    · cases e0; exact absurd rfl (hwr buf niov env)
    · exact e2
  intro hf
  have hr := hw.rel.hs k
  rw [e1] at hr
  cases e : w.sys.hs k with
  | never => rw [e] at hr; exact hr.elim
  | gone b => rw [e] at hr; exact hr.elim
  | live hd =>
    rw [e] at hr
    have hwant : w.sys.wants op = op.wanted sh := by
      cases op with
      | writev => rfl
      | flush k' wait env => cases e0; unfold Sys.wants Sys.cached Op.wanted; simp only [Op.handle] at e ⊢; rw [e]; exact hr.cache.msgs
      | close k' env => cases e0; unfold Sys.wants Sys.cached Op.wanted; simp only [Op.handle] at e ⊢; rw [e]; exact hr.cache.msgs
      | readv => cases hwrt
      | «open» => cases hwrt
      | stat => cases hwrt
      | farmStat => cases hwrt
      | appdata => cases hwrt
    rw [hwant, hw.rel.ring.unreadMsgs, hw.rel.ring.n, hw.rel.ring.mm] at hf
    have := hj2 op sh hb hwrt e1 hf
    omega

/-- **C55.** A suspended call has the wait-mode block/wake handle that it waits on: readers for "writer to reader", writers for
"reader to writer".  (`bw_wait_ul` would abort otherwise, lib/bw.c:561.)  Whatever the operating system does. -/
theorem C55_waits_on_own_handle {a : InitArgs} {pid : Nat → Nat} {hist : List Op} {w : WSys} (h : AReach a pid hist w)
    {k : Nat} {op : Op} {woken : Bool} (hb : w.blk k = some (op, woken)) :
    op.handle = k ∧ ∃ t, w.b.ts op.waitsOn = some (.wait (if op.writes then 1 else 0) (pid k) t) := by
  obtain ⟨sp, hw, _, _⟩ := h.state
  obtain ⟨e0, _, sh, e1, e2⟩ := hw.blk _ _ _ hb
  refine ⟨e0, ?_⟩
  rcases e2 with ⟨⟨k', buf, niov, env, rfl⟩, e3, _⟩ | ⟨e2, e3, e4, _⟩
  · cases e0
    exact (hw.rdl _ sh e1 e3).1
  · obtain ⟨t, ht⟩ := (hw.wrl k sh e1 e3).2.1 e4
    refine ⟨t, ?_⟩
    rw [e2, if_pos rfl]
    have : op.waitsOn = 2 * k + 1 := by
      subst e0
      cases op <;> first | rfl | cases e2
    rw [this]; exact ht

/-- **C55**, second part. No call aborts or faults: every call that a client may make, and every woken call that goes on, is a step of the system
(returns or waits). -/
theorem C55_no_fault {a : InitArgs} {pid : Nat → Nat} {hist : List Op} {w : WSys} (h : AReach a pid hist w) (os : WOs) :
    (∀ op, w.Callable op → op.WF a.appsize → (a.flags.has SHR_FARM = true → (hist ++ [op]).length * offered (hist ++ [op]) < W) →
      ∃ w' o ops, WSys.Step pid w (.call op os) w' o ops) ∧
    (∀ k op env, w.blk k = some (op, true) → (a.flags.has SHR_FARM = true → (hist ++ [op]).length * offered (hist ++ [op]) < W) →
      ∃ w' o ops, WSys.Step pid w (.resume k env os) w' o ops) := by
  obtain ⟨sp, hw, hp, hl⟩ := h.state
  have main : ∀ op : Op, op.WF a.appsize → (a.flags.has SHR_FARM = true → (hist ++ [op]).length * offered (hist ++ [op]) < W) →
      ∃ w' o ops, w.attempt pid op os = some (w', o, ops) := by
    intro op hwf hfarm
    obtain ⟨g1, _⟩ := count_bound (op := w.fill pid os op) hp hl
    rw [offered_append, offered_fill, ← offered_append] at g1
    have hlen : (hist ++ [w.fill pid os op]).length = (hist ++ [op]).length := by simp
    rw [hlen] at g1
    have hwf' : (w.fill pid os op).WF sp.app.length := by rw [hw.app]; exact fill_wf.2 hwf
    obtain ⟨s', hst, _⟩ := step_refine hw.rel (w.fill pid os op) hwf' (fun hf => Nat.lt_of_le_of_lt (g1 (farm_flag hw.gf hf)) (hfarm (farm_flag hw.gf hf)))
    unfold WSys.attempt
    rw [hst]
    exact ⟨_, _, _, rfl⟩
  refine ⟨fun op hca hwf hfarm => ?_, fun k op env hb hfarm => ?_⟩
  · obtain ⟨w', o, ops, e⟩ := main op hwf hfarm
    exact ⟨w', o, ops, .call hca e⟩
  · obtain ⟨_, e2, _⟩ := hw.blk k op true hb
    obtain ⟨w', o, ops, e⟩ := main (op.withEnv env) (withEnv_wf.2 e2) (by
      rw [offered_append, offered_withEnv, ← offered_append]
      simpa using hfarm)
    exact ⟨w', o, ops, .resume hb e⟩

/-- **C56.** On a ring that is not a farm, a suspended reader and a suspended writer cannot both have no datagram pending: one of
the two can go on.  Missing: as in C34 and C35. -/
theorem C56_no_deadlock_partial {a : InitArgs} {pid : Nat → Nat} {hist : List Op} {w : WSys} (h0 : Announced a pid 0 (BOp.wakes 0) hist w)
    (h1 : Announced a pid 1 (BOp.wakes 1) hist w) (hf : w.sys.ring.gflags.has SHR_FARM = false) {k : Nat} {buf : List Byte} {niov : Nat} {env : Env}
    (hb : w.blk k = some (.readv k buf niov env, false)) {j : Nat} {op : Op} (hj : w.blk j = some (op, false))
    (hwr : ∀ buf niov env, op ≠ .readv j buf niov env) : 1 ≤ w.b.pending (2 * k) ∨ 1 ≤ w.b.pending (2 * j + 1) := by
  by_cases hp : w.b.pending (2 * k) = 0
  · right
    by_cases hq : w.b.pending (2 * j + 1) = 0
    · exfalso
      apply C35_blocked_writer_partial h1 hj hwr hq
      obtain ⟨sp, hw, _, _⟩ := h0.clean.any.state
      obtain ⟨_, _, shk, g1, _⟩ := hw.blk _ _ _ hb
      have hrk := hw.rel.hs k
      rw [g1] at hrk
      cases ek : w.sys.hs k with
      | never => rw [ek] at hrk; exact hrk.elim
      | gone b => rw [ek] at hrk; exact hrk.elim
      | live hdk =>
        have hU := C34_blocked_reader_partial h0 ek hb hp
        unfold Ring.readableBy at hU
        rw [if_neg (by simp [hf])] at hU
        rw [hU]
        obtain ⟨e0, _, sh, e1, e2⟩ := hw.blk _ _ _ hj
        have hr := hw.rel.hs j
        rw [e1] at hr
        cases e : w.sys.hs j with
        | never => rw [e] at hr; exact hr.elim
        | gone b => rw [e] at hr; exact hr.elim
        | live hd =>
          rw [e] at hr
          rw [hw.rel.ring.n, hw.rel.ring.mm]
          have hpend : Fits sp.cap sp.maxm [] (w.sys.cached j) := by
            unfold Sys.cached; rw [e]; dsimp only
            rw [hr.cache.msgs]
            have g1 := HRel.cache hr
            have g2 := hr.csz
            have g3 := hr.cvt
            have g4 := g1.nle
            have g5 := g1.vle
            unfold Fits
            simp only [bytesOf, List.map_nil, List.sum_nil, List.length_nil, Nat.zero_add] at *
            omega
          rcases e2 with ⟨⟨k', buf', niov', env', rfl⟩, _⟩ | ⟨e2, _, _, _, e3⟩
          · cases e0; exact absurd rfl (hwr _ _ _)
          · cases op with
            | writev k' iov f1 f2 =>
              obtain ⟨_, hL⟩ := e3 _ _ _ _ rfl
              unfold Sys.wants
              have := hL.2.2
              unfold Fits
              simp only [bytesOf, List.map_nil, List.sum_nil, List.length_nil, Nat.zero_add] at *
              omega
            | flush k' wait env => cases e0; exact hpend
            | close k' env => cases e0; exact hpend
            | readv => cases e2
            | «open» => cases e2
            | stat => cases e2
            | farmStat => cases e2
            | appdata => cases e2
    · omega
  · left; omega

/-- What an attempt did, in terms of the specification state. -/
theorem wattempt_spec {a : InitArgs} {pid : Nat → Nat} {w w' : WSys} {sp : Spec} (hw : TInv a pid w sp) {op : Op} {os : WOs} {o : Out} {ops : List BOp}
    (hwf : op.WF a.appsize) (hlog : sp.farm = true → (sp.step (w.fill pid os op)).1.log.length < W) (hat : w.attempt pid op os = some (w', o, ops)) :
    Rel w'.sys (sp.step (w.fill pid os op)).1 ∧ o = (sp.step (w.fill pid os op)).2 ∧ ops = w.bops pid os o (w.fill pid os op) ∧ w'.b = w.b.runs ops := by
  have hwf' : (w.fill pid os op).WF sp.app.length := by rw [hw.app]; exact fill_wf.2 hwf
  obtain ⟨s', hst, hrel'⟩ := step_refine hw.rel (w.fill pid os op) hwf' hlog
  unfold WSys.attempt at hat
  rw [hst] at hat
  simp only [Option.some.injEq, Prod.mk.injEq] at hat
  obtain ⟨rfl, rfl, rfl⟩ := hat
  exact ⟨hrel', rfl, rfl, rfl⟩

/-! ## A successful write wakes every reader -/

theorem tryWrite_pos {sp : Spec} {who : Nat} {nb : Bool} {new : List Msg} {env : Env} {rc : Int} (h : (sp.tryWrite who nb new env).2 = .ret rc) (hrc : 0 < rc) :
    env.wakeOk = true ∧ (sp.tryWrite who nb new env).1.tlog ≠ sp.tlog := by
  unfold Spec.tryWrite at h ⊢
  split at h
  · cases h; omega
  · rename_i hl
    rw [if_neg hl]
    split at h
    · rename_i hf
      rw [if_pos hf]
      dsimp only at h ⊢
      split at h
      · cases h; omega
      · rename_i hwk
        split at h
        · cases h; omega
        · cases h
          refine ⟨by simpa using hwk, fun e => ?_⟩
          unfold Spec.commit at e
          dsimp only at e
          have : new.map (fun m => (who, m)) = [] := by
            have := congrArg List.length e
            simp only [List.length_append] at this
            exact List.length_eq_zero_iff.1 (by omega)
          rw [List.map_eq_nil_iff] at this
          subst this
          simp [bytesOf] at hrc
    · split at h
      · cases h; omega
      · split at h
        · rename_i sc _
          cases h
          cases sc <;> simp [WaitErr.rc] at hrc
        · cases h

/-- A write or flush that returned a positive number and left nothing in the cache made a successful wake-up. -/
theorem wrote_woke {a : InitArgs} {pid : Nat → Nat} {w w' : WSys} {sp : Spec} (hw : TInv a pid w sp) {op : Op} {os : WOs} {rc : Int} {ops : List BOp}
    (hwf : op.WF a.appsize) (hnf : ∀ k iov e1 e2 sh, op = .writev k iov e1 e2 → sp.hs k = .live sh → sh.flags.has SHR_WRONLY = true → NoFlush sp sh iov)
    (hlog : sp.farm = true → (sp.step (w.fill pid os op)).1.log.length < W) (hat : w.attempt pid op os = some (w', .wrote rc, ops)) (hrc : 0 < rc)
    (hcache : ∀ sh, (sp.step (w.fill pid os op)).1.hs op.handle = .live sh → sh.pend = []) :
    (∀ k flags env, op ≠ .open k flags env) ∧ w.b.Woke 0 ops := by
  obtain ⟨_, ho, hops, _⟩ := wattempt_spec hw hwf hlog hat
  have hwf' : (w.fill pid os op).WF sp.app.length := by rw [hw.app]; exact fill_wf.2 hwf
  have hsent := sent_step hw.rel (w.fill pid os op) hwf' (by
    intro k iov e1 e2 sh e
    cases op <;> simp only [WSys.fill] at e <;> cases e
    exact hnf _ _ _ _ sh rfl) hlog
  have wake : (w.fill pid os op).writes = true → (sp.step (w.fill pid os op)).1.tlog ≠ sp.tlog → (w.sys.signal (w.fill pid os op)).wake = true := by
    intro h1 h2
    cases hwk : (w.sys.signal (w.fill pid os op)).wake
    · refine absurd ((hsent.wr ?_).1 hwk).1 h2
      intro k buf niov env e
      rw [e] at h1; cases h1
    · rfl
  cases op with
  | writev k iov e1 e2 =>
    refine ⟨(by intro _ _ _ e; cases e), ?_⟩
    simp only [WSys.fill, Op.handle] at ho hops hcache wake
    have main : (w.b.step (.wake (2 * k) os.o1)).2 = true ∧
        (sp.step (.writev k iov e1 { e2 with wakeOk := (w.b.step (.wake (2 * k) os.o1)).2, waitRc := none })).1.tlog ≠ sp.tlog := by
      unfold Spec.step at ho hcache ⊢
      dsimp only at ho hcache ⊢
      cases hk : sp.hs k with
      | never => rw [hk] at ho; cases ho
      | gone b => rw [hk] at ho; cases ho
      | live sh =>
        rw [hk] at ho hcache; dsimp only at ho hcache ⊢
        by_cases hwo : sh.flags.has SHR_WRONLY = false
        · rw [if_pos hwo] at ho; cases ho
        rw [if_neg hwo] at ho hcache ⊢
        dsimp only at ho hcache ⊢
        rw [upd_same] at hcache
        have hcache := hcache _ rfl
        have hnf := hnf k iov e1 e2 sh rfl hk (by simpa using hwo)
        unfold Spec.writev at ho hcache ⊢
        dsimp only at ho hcache ⊢
        have toRet : ∀ {x : Spec.WRes}, Out.wrote rc = x.out → x = .ret rc := by
          intro x e; cases x <;> cases e; rfl
        by_cases hleg : ¬ Legal sp.cap sp.maxm iov
        · rw [if_pos hleg] at ho; cases ho; omega
        rw [if_neg hleg] at ho hcache ⊢
        by_cases hbuf : sh.flags.has SHR_BUFFERED = false
        · rw [if_pos hbuf] at ho ⊢
          have := tryWrite_pos (toRet ho) hrc
          exact this
        rw [if_neg hbuf] at ho hcache ⊢
        by_cases hfit : Spec.cacheFits sh iov
        · rw [if_pos hfit] at ho hcache
          dsimp only at hcache
          have : iov = [] := (List.append_eq_nil_iff.1 hcache).2
          subst this
          cases ho
          simp [bytesOf] at hrc
        rw [if_neg hfit] at ho ⊢
        have hp : sh.pend = [] := by
          rcases hnf with h | h | h | h
          · exact absurd h hleg
          · exact absurd h hbuf
          · exact absurd h hfit
          · exact h
        rw [if_pos hp] at ho ⊢
        have := tryWrite_pos (toRet ho) hrc
        exact this
    rw [hops]
    unfold WSys.bops
    dsimp only
    rw [if_pos (wake rfl main.2)]
    exact .inl ⟨⟨_, _, rfl, by omega⟩, main.1⟩
  | flush k wait env =>
    refine ⟨(by intro _ _ _ e; cases e), ?_⟩
    simp only [WSys.fill] at ho hops wake
    generalize hokk : ((w.b.runs (w.flushPre pid k wait env os)).step (.wake (2 * k) os.o1)).2 = okk at *
    generalize (w.b.step (.openWait (2 * k + 1) 1 (pid k) os.o2)).2 = ok2 at *
    have main : okk = true ∧ (sp.step (.flush k wait { env with bwOpenOk := ok2, wakeOk := okk, waitRc := none })).1.tlog ≠ sp.tlog := by
      unfold Spec.step at ho ⊢
      dsimp only at ho ⊢
      cases hk : sp.hs k with
      | never => rw [hk] at ho; cases ho
      | gone b => rw [hk] at ho; cases ho
      | live sh =>
        rw [hk] at ho; dsimp only at ho ⊢
        by_cases hwo : sh.flags.has SHR_WRONLY = false
        · rw [if_pos hwo] at ho; cases ho
        rw [if_neg hwo] at ho ⊢
        dsimp only at ho ⊢
        have toRet : ∀ {x : Spec.WRes}, Out.wrote rc = x.out → x = .ret rc := by
          intro x e; cases x <;> cases e; rfl
        have ho := toRet ho
        unfold Spec.flush at ho ⊢
        dsimp only at ho ⊢
        by_cases hp : sh.pend = []
        · rw [if_pos hp] at ho; cases ho; omega
        rw [if_neg hp] at ho ⊢
        split at ho
        · cases ho; omega
        · rename_i hbad
          rw [if_neg hbad]
          have := tryWrite_pos ho hrc
          exact this
    rw [hops]
    unfold WSys.bops
    dsimp only
    rw [if_pos (wake rfl main.2)]
    refine woke_append (.inl ⟨⟨_, _, rfl, by omega⟩, ?_⟩)
    exact hokk.trans main.1
  | «open» k flags env =>
    exfalso
    simp only [WSys.fill] at ho
    unfold Spec.step at ho; dsimp only at ho
    repeat' split at ho
    all_goals cases ho
  | readv k buf niov env =>
    exfalso
    simp only [WSys.fill] at ho
    unfold Spec.step Spec.readv at ho; dsimp only at ho
    repeat' split at ho
    all_goals cases ho
  | close k env =>
    exfalso
    simp only [WSys.fill] at ho
    unfold Spec.step at ho; dsimp only at ho
    repeat' split at ho
    all_goals cases ho
  | stat k reset env =>
    exfalso
    simp only [WSys.fill] at ho
    unfold Spec.step at ho; dsimp only at ho
    repeat' split at ho
    all_goals cases ho
  | farmStat k reset =>
    exfalso
    simp only [WSys.fill] at ho
    unfold Spec.step at ho; dsimp only at ho
    repeat' split at ho
    all_goals cases ho
  | appdata k get set sz env =>
    exfalso
    simp only [WSys.fill] at ho
    unfold Spec.step at ho; dsimp only at ho
    repeat' split at ho
    all_goals cases ho

/-- **C34**, second part ("every write that makes a message available leaves a wake-up pending"), from any state that clean steps lead to, whatever
system calls failed before: when a write or flush on handle `k`, or its resumption after waiting, returns a positive number and leaves nothing in the handle's cache
(always so for an unbuffered handle, and for a flush), every open reader has a datagram pending. -/
theorem C34_successful_write_wakes {a : InitArgs} {pid : Nat → Nat} {hist : List Op} {w w' : WSys} (h : CReach a pid hist w) {x : WOp} {rc : Int}
    {ops : List BOp} (hs : AStep a pid hist w x w' (.wrote rc) ops) (hc : w.b.CleanRun ops) (hrc : 0 < rc) {op : Op} (hx : x.issued w = [op])
    (hcache : w'.sys.cached op.handle = []) {j : Nat} {hd : Handle} (hj : w'.sys.hs j = .live hd) (hr : hd.flags.has SHR_RDONLY = true) :
    1 ≤ w'.b.pending (2 * j) := by
  have hre := h.breach
  obtain ⟨sp, hrep⟩ := h.any.state
  have hw := hrep.inv
  obtain ⟨hwf, hfarm, hst⟩ := hs
  have main : ∀ (op2 : Op) (os : WOs), op2 = op ∨ (∃ e, op2 = op.withEnv e) → op2.WF a.appsize →
      (∀ k iov e1 e2 sh, op2 = .writev k iov e1 e2 → sp.hs k = .live sh → sh.flags.has SHR_WRONLY = true → NoFlush sp sh iov) →
      w.attempt pid op2 os = some (w', .wrote rc, ops) → 1 ≤ w'.b.pending (2 * j) := by
    intro op2 os hop hwf hnf hat
    have hb : (sp.farm = true → (sp.step (w.fill pid os op2)).1.log.length < W) ∧ op2.handle = op.handle := by
      obtain ⟨g1, _⟩ := count_bound (op := w.fill pid os op2) hrep.pend hrep.len
      have ho : offered [w.fill pid os op2] = offered (x.issued w) ∧ op2.handle = op.handle := by
        rw [offered_fill, hx]
        rcases hop with rfl | ⟨e, rfl⟩
        · exact ⟨rfl, rfl⟩
        · exact ⟨offered_withEnv _ _, withEnv_handle _ _⟩
      rw [offered_append, ho.1, ← offered_append] at g1
      have hlen : (hist ++ [w.fill pid os op2]).length = (hist ++ x.issued w).length := by simp [hx]
      rw [hlen] at g1
      exact ⟨fun hf => Nat.lt_of_le_of_lt (g1 (farm_flag hw.gf hf)) (hfarm (farm_flag hw.gf hf)), ho.2⟩
    obtain ⟨hrel, _⟩ := wattempt_spec hw hwf hb.1 hat
    obtain ⟨g1, g2⟩ := wrote_woke hw hwf hnf hb.1 hat hrc (by
      intro sh hsh
      rw [hb.2] at hsh
      have hr := hrel.hs op.handle
      rw [hsh] at hr
      cases e : w'.sys.hs op.handle with
      | never => rw [e] at hr; exact hr.elim
      | gone b => rw [e] at hr; exact hr.elim
      | live hd =>
        rw [e] at hr
        unfold Sys.cached at hcache
        rw [e] at hcache
        dsimp only at hcache
        rw [← hr.cache.msgs]; exact hcache)
    obtain ⟨sh, e1, e2⟩ := hrel.live hj
    exact woke_readers hw g1 hat hre hc hrel g2 j sh e1 (e2.flags ▸ hr)
  generalize ho : Out.wrote rc = o at hst main
  cases hst with
  | call hca hat =>
    rename_i op2 os
    have hx : [op2] = [op] := hx
    cases hx
    refine main op os (.inl rfl) (hwf op os rfl) ?_ hat
    rintro k iov e1 e2 sh rfl hk hwo
    have hr := hw.rel.hs k
    rw [hk] at hr
    cases e : w.sys.hs k with
    | never => rw [e] at hr; exact hr.elim
    | gone b => rw [e] at hr; exact hr.elim
    | live hd =>
      rw [e] at hr
      refine noFlush_of (k := k) (e1 := e1) (e2 := e2) hw.rel.ring hr hwo (hwf _ _ rfl) ?_
      rw [← e]; exact hca.2.1
  | resume hb hat =>
    rename_i k op2 env os
    have hx : (WOp.resume k env os).issued w = [op] := hx
    unfold WOp.issued at hx
    dsimp only at hx
    rw [hb] at hx
    cases hx
    obtain ⟨e1, e2, sh, e3, e4⟩ := hw.blk k op true hb
    refine main _ os (.inr ⟨env, rfl⟩) (withEnv_wf.2 e2) ?_ hat
    intro k' iov f1 f2 sh' he hk' _
    rcases e4 with ⟨⟨_, _, _, _, rfl⟩, _⟩ | ⟨_, _, _, _, hnf⟩
    · cases he
    · cases op <;> simp only [Op.withEnv] at he <;> cases he
      cases e1
      have e3 : sp.hs k' = .live sh := e3
      rw [hk'] at e3; cases e3
      exact (hnf _ _ _ _ rfl).1
  | wakeup => cases ho
  | interrupt hb hops => simp [WOp.issued] at hx
  | kill => simp [WOp.issued] at hx

/-! ## C36 -/

/-- **C36**, first part. If a message is available to an open non-blocking reader, its selectable descriptor is readable.
Missing: the time from a failing `bw_wake` of a writer, a writer's death before it, or a failing `bw_force` of this reader, to the next successful `bw_wake`
(`C36_counterexample_failed_wake`), and steps that are not clean. -/
theorem C36_available_implies_readable_partial {a : InitArgs} {pid : Nat → Nat} {hist : List Op} {w : WSys} {k : Nat}
    (h : Announced a pid 0 (fun x => x.wakes 0 || x.forces (2 * k)) hist w)
    {hd : Handle} (hk : w.sys.hs k = .live hd) (hr : hd.flags.has SHR_RDONLY = true) (hn : hd.flags.has SHR_NONBLOCK = true)
    (hav : w.sys.ring.readableBy hd ≠ []) : 1 ≤ w.b.pending (2 * k) := by
  obtain ⟨sp, ⟨hw, _, _⟩, hj⟩ := h.readers (k := k) (P := True) (fun x e => by simp [e]) (fun _ x e => by simp [e])
  obtain ⟨sh, e1, e2⟩ := hw.rel.live hk
  rw [readableBy_eq hw.rel.ring e2] at hav
  rw [e2.flags] at hr hn
  exact hj sh e1 hr (.inl ⟨trivial, hn⟩) hav

/-- The waiter's queue is empty and stays so if nobody wakes it. -/
theorem runs_quiet {b : BSys} (h : BInv b) {ops : List BOp} (hc : b.CleanRun ops) {i hi p : Nat} {t : WaitT} (e : b.ts i = some (.wait hi p t))
    (hav : ∀ x ∈ ops, x.avoids i p) (hn : ∀ x ∈ ops, ∀ j os, x ≠ .wake j os) : (b.runs ops).pending i = b.pending i :=
  (runs_pending h hc e hav).2.2 hn

/-- Steps that neither write nor, on a farm ring, read through another handle. -/
def Quiet (k : Nat) (w : WSys) (x : WOp) : Prop :=
  ∀ op ∈ x.issued w, op.writes = false ∧
    (w.sys.ring.gflags.has SHR_FARM = true → ∀ k' buf niov env, op = .readv k' buf niov env → k' = k)

/-- A drained non-blocking reader: nothing to read, nothing pending (if the handle is still open). -/
def Drained (k : Nat) (w : WSys) (sp : Spec) : Prop :=
  sp.hs k ≠ .never ∧ ∀ sh, sp.hs k = .live sh → sh.flags.has SHR_RDONLY = true ∧ sh.flags.has SHR_NONBLOCK = true ∧ sp.readable sh = [] ∧
    w.b.pending (2 * k) = 0

/-- An attempt of a call that is not a write keeps a drained reader drained. -/
theorem drained_attempt {a : InitArgs} {pid : Nat → Nat} {w w' : WSys} {sp : Spec} (hw : TInv a pid w sp) (hre : BInv w.b) {op : Op} {os : WOs} {o : Out} {ops : List BOp}
    (hwf : op.WF a.appsize)
    (hlog : sp.farm = true → (sp.step (w.fill pid os op)).1.log.length < W) (hat : w.attempt pid op os = some (w', o, ops))
    (hc : w.b.CleanRun ops) {k : Nat} (hsig : (∀ k flags env, op ≠ .open k flags env) → w.b.Succeed (BOp.forces (2 * k)) ops) (hd : Drained k w sp) (hq1 : op.writes = false)
    (hq2 : sp.farm = true → ∀ k' buf niov env, op = .readv k' buf niov env → k' = k) :
    Drained k w' (sp.step (w.fill pid os op)).1 := by
  obtain ⟨_, ho, hops, hb⟩ := wattempt_spec hw hwf hlog hat
  obtain ⟨hnv, hd⟩ := hd
  have hle := step_le sp (w.fill pid os op)
  have hoth := fun j => step_other_hs sp (w.fill pid os op) j
  rw [fill_handle] at hoth
  have hwf' : (w.fill pid os op).WF sp.app.length := by rw [hw.app]; exact fill_wf.2 hwf
  have hsent := sent_step hw.rel (w.fill pid os op) hwf' (by
    intro k iov e1 e2 sh e
    cases op <;> simp only [WSys.fill] at e <;> cases e
    cases hq1) hlog
  -- calls on other handles, and those that send nothing
  have calm : (sp.step (w.fill pid os op)).1.tlog = sp.tlog → (sp.step (w.fill pid os op)).1.base = sp.base →
      (sp.step (w.fill pid os op)).1.first = sp.first → (∀ sh, (sp.step (w.fill pid os op)).1.hs k = .live sh → ∃ sh0, sp.hs k = .live sh0 ∧
        sh.flags = sh0.flags ∧ sh.pos = sh0.pos) → (sp.step (w.fill pid os op)).1.hs k ≠ .never →
      (∀ sh, sp.hs k = .live sh → ∀ x ∈ ops, x.avoids (2 * k) (pid k) ∧ ∀ j os, x ≠ .wake j os) → Drained k w' (sp.step (w.fill pid os op)).1 := by
    intro c1 c2 c3 c4 c5 c6
    refine ⟨c5, fun sh hs => ?_⟩
    obtain ⟨sh0, f1, f2, f3⟩ := c4 sh hs
    obtain ⟨g1, g2, g3, g4⟩ := hd sh0 f1
    refine ⟨f2 ▸ g1, f2 ▸ g2, ?_, ?_⟩
    · rw [readable_congr hle.gf c1 c2 c3 f3]; exact g3
    · obtain ⟨⟨t, ht⟩, _⟩ := hw.rdl k sh0 f1 g1
      rw [hb, runs_quiet hre hc ht (fun x hx => (c6 sh0 f1 x hx).1) (fun x hx => (c6 sh0 f1 x hx).2)]
      exact g4
  by_cases hop : ∃ k0 flags env, op = .open k0 flags env
  · obtain ⟨k0, flags, env, rfl⟩ := hop
    have hsp : (sp.step (w.fill pid os (.open k0 flags env))).1.tlog = sp.tlog ∧ (sp.step (w.fill pid os (.open k0 flags env))).1.base = sp.base ∧
        (sp.step (w.fill pid os (.open k0 flags env))).1.first = sp.first := by
      refine (hsent.wr (by simp [WSys.fill])).1 ?_
      rfl
    obtain ⟨c1, c2, c3⟩ := hsp
    have hkeep : (sp.step (w.fill pid os (.open k0 flags env))).1.hs k = sp.hs k := by
      by_cases hk : k0 = k
      · subst hk
        simp only [WSys.fill]
        unfold Spec.step; dsimp only
        split
        · rename_i h; exact absurd h hnv
        · rfl
      · exact hoth k hk
    refine calm c1 c2 c3 ?_ ?_ ?_
    · intro sh hs; rw [hkeep] at hs; exact ⟨sh, hs, rfl, rfl⟩
    · rw [hkeep]; exact hnv
    · intro sh hs x hx
      rw [hops] at hx
      simp only [WSys.fill] at hx
      unfold WSys.bops at hx; dsimp only at hx
      split at hx
      · rename_i hopen
        have hk : k ≠ k0 := by
          rintro rfl
          unfold WSys.opens at hopen
          have hr := hw.rel.hs k
          rw [hs] at hr
          cases e : w.sys.hs k with
          | never => rw [e] at hr; exact hr.elim
          | live _ => rw [e] at hopen; cases hopen
          | gone _ => rw [e] at hopen; cases hopen
        refine ⟨obw_own x hx _ _ (by omega) (by omega), ?_⟩
        intro j os' e
        subst e
        unfold open_blockwake at hx
        dsimp only at hx
        repeat' split at hx
        all_goals simp at hx
      · cases hx
  have hno : ∀ k flags env, op ≠ .open k flags env := fun k flags env e => hop ⟨k, flags, env, e⟩
  have hkept := step_kept sp (w.fill pid os op) (fill_open hno)
  rw [fill_handle] at hkept
  have hnever : (sp.step (w.fill pid os op)).1.hs k ≠ .never := by
    by_cases hk : op.handle = k
    · subst hk
      cases op <;> simp only [WSys.fill] <;> first | exact absurd rfl (hno _ _ _) | cases hq1
      all_goals
        unfold Spec.step; dsimp only [Op.handle] at hnv ⊢
        split
        · repeat' split
          all_goals first | exact hnv | (dsimp only; rw [upd_same]; simp) | skip
          all_goals
            unfold Spec.appdata
            dsimp only
            repeat' split
            all_goals exact hnv
        · exact hnv
    · rw [hoth k hk]; exact hnv
  by_cases hrv : ∃ k' buf niov env, op = .readv k' buf niov env
  · obtain ⟨k', buf, niov, env, rfl⟩ := hrv
    obtain ⟨r1, r2, r3, r4⟩ := hsent.rd _ _ _ _ rfl
    by_cases hkk : k' = k
    · -- its own read
      subst hkk
      refine ⟨hnever, fun sh' hs' => ?_⟩
      obtain ⟨sh, e1, e2⟩ := hkept sh' hs'
      obtain ⟨g1, g2, g3, g4⟩ := hd sh e1
      have hdry := hsent.dry _ _ _ _ sh rfl e1 g3
      have hfst := r4 hdry
      have hro : (sp.step (w.fill pid os (.readv k' buf niov env))).1.readable sh' = [] := by
        have : sh'.pos = sh.pos ∨ sh'.pos = max sh.pos sp.base := by
          have hs2 : (sp.step (w.fill pid os (.readv k' buf niov env))).1.hs k' = .live (sp.readv sh buf niov { env with waitRc := none }).2.1 := by
            simp only [WSys.fill]
            unfold Spec.step; dsimp only
            rw [show sp.hs k' = .live sh from e1]; dsimp only
            rw [if_neg (by simp [g1])]
            exact upd_same _ _ _
          rw [hs2] at hs'
          cases hs'
          unfold Spec.readv Spec.catchUp
          dsimp only
          rw [if_pos g3]
          repeat' split
          all_goals first | exact .inl rfl | exact .inr rfl
        rw [← g3]
        unfold Spec.readable Spec.unread Spec.farm Spec.log
        rw [hle.gf, r1, r2, hfst]
        rcases this with h | h
        · rw [h]
        · rw [h]
          have : max (max sh.pos sp.base) sp.base = max sh.pos sp.base := by omega
          rw [this]
      refine ⟨e2.flags ▸ g1, e2.flags ▸ g2, hro, ?_⟩
      have hown := own_after (os := os) (o := o) (sh' := sh') hw hno e1 e2 (by intro _ _ e; cases e)
      rw [← hops] at hown
      obtain ⟨_, _, p1, p2⟩ := hown.rd g1
      have p2 := p2 ⟨hre, hc⟩ (hsig hno)
      have hfrc := hsent.frc _ _ _ _ sh' rfl hs' (e2.flags ▸ g2)
      rw [hb]
      cases hf : (w.sys.signal (w.fill pid os (.readv k' buf niov env))).force with
      | some f =>
        rw [hf] at hfrc
        have := p2 f hf
        have hff : f = false := by rw [show f = _ from hfrc, hro]; rfl
        rw [hff] at this
        simp only [Bool.false_eq_true, iff_false] at this
        have h0 : (Op.readv k' buf niov env).handle = k' := rfl
        rw [h0] at this
        omega
      | none =>
        obtain ⟨⟨t, ht⟩, _⟩ := hw.rdl k' sh e1 g1
        have hnil : ops = [] := by
          rw [hops]
          simp only [WSys.fill] at hf hdry ⊢
          unfold WSys.bops; dsimp only
          rw [hf, hdry]; rfl
        rw [hnil]; exact g4
    · -- a read by somebody else: nothing to read either
      have hfm : sp.farm = false := by
        cases h : sp.farm
        · rfl
        · exact absurd (hq2 h k' buf niov env rfl) hkk
      by_cases hlive : ∃ sh, sp.hs k = .live sh
      · obtain ⟨sh, hs⟩ := hlive
        obtain ⟨g1, g2, g3, g4⟩ := hd sh hs
        have hun : sp.unread = [] := by unfold Spec.readable at g3; rw [if_neg (by simp [hfm])] at g3; exact g3
        have hdry : (w.sys.signal (w.fill pid os (.readv k' buf niov env))).wake = false := by
          by_cases hl : ∃ sh2, sp.hs k' = .live sh2
          · obtain ⟨sh2, h2⟩ := hl
            refine hsent.dry _ _ _ _ sh2 rfl h2 ?_
            unfold Spec.readable; rw [if_neg (by simp [hfm])]; exact hun
          · cases hwk : (w.sys.signal (w.fill pid os (.readv k' buf niov env))).wake
            · rfl
            · obtain ⟨sh2, h2, _⟩ := signal_wake hw.rel hwk
              rw [fill_handle] at h2
              exact absurd ⟨sh2, h2⟩ hl
        refine calm r1 r2 (r4 hdry) ?_ hnever ?_
        · intro sh' hs'; rw [hoth k hkk] at hs'; exact ⟨sh', hs', rfl, rfl⟩
        · intro _ _ x hx
          rw [hops] at hx
          simp only [WSys.fill] at hx hdry
          unfold WSys.bops at hx; dsimp only at hx
          rw [hdry] at hx
          simp only [Bool.false_eq_true, if_false, List.nil_append] at hx
          split at hx
          · simp only [List.mem_singleton] at hx; subst hx
            exact ⟨show 2 * k' ≠ 2 * k by omega, fun j os' e => (by cases e)⟩
          · cases hx
      · refine ⟨hnever, fun sh hs => ?_⟩
        rw [hoth k hkk] at hs
        exact absurd ⟨sh, hs⟩ hlive
  · have hrv' := not_readv (op := w.fill pid os op) (fun h => hrv ((fill_readv (w := w) (pid := pid) (os := os) (op := op)).1 h))
    have hnil : ops = [] ∧ (w.sys.signal (w.fill pid os op)).wake = false := by
      rw [hops]
      cases op <;> first | exact absurd rfl (hno _ _ _) | exact absurd ⟨_, _, _, _, rfl⟩ hrv | exact ⟨rfl, rfl⟩ | cases hq1
    obtain ⟨c1, c2, c3⟩ := (hsent.wr hrv').1 hnil.2
    refine calm c1 c2 c3 ?_ hnever ?_
    · intro sh hs
      by_cases hk : op.handle = k
      · subst hk
        obtain ⟨sh0, f1, f2⟩ := hkept sh hs
        exact ⟨sh0, f1, f2.flags, f2.pos hrv'⟩
      · rw [hoth k hk] at hs; exact ⟨sh, hs, rfl, rfl⟩
    · intro _ _ x hx; rw [hnil.1] at hx; cases hx

theorem discard_never {sp : Spec} {D : Nat → Bool} {k : Nat} (h : sp.hs k ≠ .never) : (sp.discard D).hs k ≠ .never := by
  unfold Spec.discard
  dsimp only
  cases e : sp.hs k with
  | never => exact absurd e h
  | gone b => simp
  | live sh => dsimp only; split <;> simp

/-- A quiet step keeps a drained reader drained. -/
theorem drained_step {a : InitArgs} {pid : Nat → Nat} {hist : List Op} {w w' : WSys} {x : WOp} {o : Out} {sp : Spec} {ops : List BOp} (hr : Repr a pid hist w sp)
    (hre : BInv w.b) (hs : AStep a pid hist w x w' o ops) (hc : w.b.CleanRun ops) {k : Nat} (hsig : x.isOpen = false → w.b.Succeed (BOp.forces (2 * k)) ops)
    (hd : Drained k w sp) (hq : Quiet k w x) : ∃ sp', Rel w'.sys sp' ∧ Drained k w' sp' := by
  obtain ⟨hw, hp, hl⟩ := hr
  obtain ⟨hwf, hfarm, hst⟩ := hs
  have hgf := hw.rel.ring.gf
  have hbound : ∀ (op : Op) (os : WOs), x.issued w = [op] ∨ (∃ op0 e, x.issued w = [op0] ∧ op = op0.withEnv e) →
      (sp.farm = true → (sp.step (w.fill pid os op)).1.log.length < W) ∧ op.writes = false ∧
      (sp.farm = true → ∀ k' buf niov env, op = .readv k' buf niov env → k' = k) := by
    intro op os hi
    obtain ⟨g1, _⟩ := count_bound (op := w.fill pid os op) hp hl
    have ho : offered [w.fill pid os op] = offered (x.issued w) ∧ (x.issued w).length = 1 ∧ op.writes = false ∧
        (sp.farm = true → ∀ k' buf niov env, op = .readv k' buf niov env → k' = k) := by
      rw [offered_fill]
      rcases hi with hi | ⟨op0, e, hi, rfl⟩
      · obtain ⟨q1, q2⟩ := hq op (by rw [hi]; simp)
        rw [hi]; exact ⟨rfl, rfl, q1, fun hf => q2 (by rw [hgf]; exact hf)⟩
      · obtain ⟨q1, q2⟩ := hq op0 (by rw [hi]; simp)
        rw [hi, offered_withEnv, withEnv_writes]
        refine ⟨rfl, rfl, q1, fun hf k' buf niov env he => ?_⟩
        cases op0 <;> simp only [Op.withEnv] at he <;> cases he
        exact q2 (by rw [hgf]; exact hf) _ _ _ _ rfl
    rw [offered_append, ho.1, ← offered_append] at g1
    have hlen : (hist ++ [w.fill pid os op]).length = (hist ++ x.issued w).length := by simp [ho.2.1]
    rw [hlen] at g1
    exact ⟨fun hf => Nat.lt_of_le_of_lt (g1 (farm_flag hw.gf hf)) (hfarm (farm_flag hw.gf hf)), ho.2.2⟩
  -- a blocked call is not one on this handle
  have hblk : ∀ j op b, w.blk j = some (op, b) → ∀ sh, sp.hs k = .live sh → j ≠ k := by
    rintro j op b hb sh hk rfl
    obtain ⟨_, _, sh', e1, e2⟩ := hw.blk j op b hb
    rw [hk] at e1; cases e1
    obtain ⟨g1, g2, _⟩ := hd.2 sh hk
    rw [suspended_rd hw.rel hk e2 g1] at g2; cases g2
  cases hst with
  | call hca hat =>
    rename_i op os
    obtain ⟨b1, b2, b3⟩ := hbound op os (.inl rfl)
    have hwf := hwf op os rfl
    obtain ⟨hrel, _⟩ := wattempt_spec hw hwf b1 hat
    exact ⟨_, hrel, drained_attempt hw hre hwf b1 hat hc (fun h => hsig (isOpen_call h)) hd b2 b3⟩
  | resume hb hat =>
    rename_i j op env os
    have hiss : (WOp.resume j env os).issued w = [op] := by unfold WOp.issued; dsimp only; rw [hb]
    obtain ⟨b1, b2, b3⟩ := hbound (op.withEnv env) os (.inr ⟨op, env, hiss, rfl⟩)
    obtain ⟨_, e2, _⟩ := hw.blk j op true hb
    have hwf := withEnv_wf (e := env).2 e2
    obtain ⟨hrel, _⟩ := wattempt_spec hw hwf b1 hat
    exact ⟨_, hrel, drained_attempt hw hre hwf b1 hat hc (fun _ => hsig rfl) hd b2 b3⟩
  | wakeup hb h1 h2 =>
    rename_i j op os
    refine ⟨sp, hw.rel, hd.1, fun sh hk => ?_⟩
    obtain ⟨g1, g2, g3, g4⟩ := hd.2 sh hk
    refine ⟨g1, g2, g3, ?_⟩
    obtain ⟨⟨t, ht⟩, _⟩ := hw.rdl k sh hk g1
    obtain ⟨e0, _⟩ := hw.blk j op false hb
    have hj := hblk j op false hb sh hk
    show (w.b.runs _).pending _ = 0
    rw [runs_quiet hre hc ht]
    · exact g4
    · intro x hx; simp only [List.mem_singleton] at hx; subst hx
      show op.waitsOn ≠ 2 * k
      rcases waitsOn_own e0 with h | h <;> omega
    · intro x hx; simp only [List.mem_singleton] at hx; subst hx; intro _ _ e; cases e
  | interrupt hb hops =>
    rename_i j op e os
    have main : ∀ sh, sp.hs k = .live sh → sh.flags.has SHR_RDONLY = true ∧ sh.flags.has SHR_NONBLOCK = true ∧ sp.readable sh = [] ∧
        (w.b.runs ops).pending (2 * k) = 0 := by
      intro sh hk
      obtain ⟨g1, g2, g3, g4⟩ := hd.2 sh hk
      refine ⟨g1, g2, g3, ?_⟩
      obtain ⟨⟨t, ht⟩, _⟩ := hw.rdl k sh hk g1
      have hj := hblk j op false hb sh hk
      rw [runs_quiet hre hc ht]
      · exact g4
      · intro x hx
        rw [hops] at hx
        split at hx
        · simp only [List.mem_cons, List.not_mem_nil, or_false] at hx
          rcases hx with rfl | rfl
          · show 2 * j ≠ 2 * k; omega
          · show 2 * j + 1 ≠ 2 * k; omega
        · cases hx
      · intro x hx
        rw [hops] at hx
        split at hx
        · simp only [List.mem_cons, List.not_mem_nil, or_false] at hx
          rcases hx with rfl | rfl <;> (intro _ _ e; cases e)
        · cases hx
    by_cases hcl : WSys.gaveUp e op = .closed
    · refine ⟨sp.discard (fun i => i == j), ?_, discard_never hd.1, fun sh hk => ?_⟩
      · dsimp only; rw [if_pos hcl]; exact rel_discard hw.rel _
      · exact main sh (discard_live.1 hk).1
    · refine ⟨sp, ?_, hd.1, main⟩
      dsimp only; rw [if_neg hcl]; exact hw.rel
  | kill =>
    rename_i p
    refine ⟨sp.discard (fun i => pid i == p), rel_discard hw.rel _, discard_never hd.1, fun sh hk => ?_⟩
    obtain ⟨hk, hpk⟩ := discard_live.1 hk
    obtain ⟨g1, g2, g3, g4⟩ := hd.2 sh hk
    refine ⟨g1, g2, g3, ?_⟩
    obtain ⟨⟨t, ht⟩, _⟩ := hw.rdl k sh hk g1
    show (w.b.runs _).pending _ = 0
    rw [runs_quiet hre hc ht]
    · exact g4
    · intro x hx; simp only [List.mem_singleton] at hx; subst hx
      have : pid k ≠ p := by simpa using hpk
      exact fun h => this h.symm
    · intro x hx; simp only [List.mem_singleton] at hx; subst hx; intro _ _ e; cases e

theorem readable_unique {s : Sys} {sp : Spec} (hr : Rel s sp) {k : Nat} {hd : Handle} (hk : s.hs k = .live hd) :
    ∃ sh, sp.hs k = .live sh ∧ sh.flags = hd.flags ∧ sp.readable sh = s.ring.readableBy hd := by
  obtain ⟨sh, e1, e2⟩ := hr.live hk
  exact ⟨sh, e1, e2.flags.symm, (readableBy_eq hr.ring e2).symm⟩

/-- What deaths have in common: a drained reader stays drained if the ring is left as it was (but for the counters and the app data) and the calls do not wake. -/
theorem drained_corpse {a : InitArgs} {pid : Nat → Nat} {w w' : WSys} {sp sp' : Spec} (hw : TInv a pid w sp) (hre : BInv w.b) {ops : List BOp}
    (hc : w.b.CleanRun ops) {j : Nat} {r : Ring} {b' : BSys} (hcp : Corpse pid w ops j r b' w') (hrel : Rel w'.sys sp') {k : Nat} (hd : Drained k w sp)
    (hr : ∀ sh, sp.hs k = .live sh → pid k ≠ pid j → r = { w.sys.ring with stat := r.stat, app := r.app })
    (hn : ∀ sh, sp.hs k = .live sh → pid k ≠ pid j → ∀ x ∈ ops, ∀ i os, x ≠ .wake i os) : Drained k w' sp' := by
  obtain ⟨rfl, hfr, hcons, hcut, hown⟩ := hcp
  have h1 := hw.rel.hs k
  have h2 := hrel.hs k
  have hdis : (w.corpse pid (pid j) r b').sys.hs k = (w.sys.discard (fun i => pid i == pid j)).hs k := rfl
  rw [hdis] at h2
  refine ⟨?_, fun sh hs => ?_⟩
  · intro hnv
    rw [hnv] at h2
    have : w.sys.hs k = .never := by
      unfold Sys.discard at h2
      dsimp only at h2
      cases e : w.sys.hs k with
      | never => rfl
      | gone b => rw [e] at h2; exact h2.elim
      | live hd => rw [e] at h2; dsimp only at h2; split at h2 <;> exact h2.elim
    rw [this] at h1
    cases e : sp.hs k with
    | never => exact hd.1 e
    | gone b => rw [e] at h1; exact h1.elim
    | live sh => rw [e] at h1; exact h1.elim
  · obtain ⟨hdl, e1, hpk⟩ : ∃ hdl, w.sys.hs k = .live hdl ∧ pid k ≠ pid j := by
      rw [hs] at h2
      unfold Sys.discard at h2
      dsimp only at h2
      cases e : w.sys.hs k with
      | never => rw [e] at h2; exact h2.elim
      | gone b => rw [e] at h2; exact h2.elim
      | live hd =>
        rw [e] at h2; dsimp only at h2
        split at h2
        · exact h2.elim
        · rename_i hp; exact ⟨hd, rfl, by simpa using hp⟩
    have e2 : (w.corpse pid (pid j) r b').sys.hs k = .live hdl := by
      rw [hdis]
      unfold Sys.discard
      dsimp only
      rw [e1]; dsimp only
      rw [if_neg (by simpa using hpk)]
    obtain ⟨sh0, f1, f2, f3⟩ := readable_unique hw.rel e1
    obtain ⟨sh', g1, g2, g3⟩ := readable_unique hrel e2
    rw [hs] at g1; cases g1
    obtain ⟨d1, d2, d3, d4⟩ := hd.2 sh0 f1
    refine ⟨by rw [g2, ← f2]; exact d1, by rw [g2, ← f2]; exact d2, ?_, ?_⟩
    · rw [g3, ← d3, f3]
      show r.readableBy hdl = w.sys.ring.readableBy hdl
      rw [hr sh0 f1 hpk]; rfl
    · obtain ⟨⟨t, ht⟩, _⟩ := hw.rdl k sh0 f1 d1
      show b'.pending (2 * k) = 0
      have hkj : k ≠ j := by rintro rfl; exact hpk rfl
      rw [hcut.pending_quiet hre hc ht hpk (fun x hx => hown x hx _ _ (by omega) (by omega)) (hn sh0 f1 hpk)]
      exact d4

/-- The calls of a quiet attempt through another handle than a drained reader's do not wake. -/
theorem quiet_no_wake {a : InitArgs} {pid : Nat → Nat} {w w' : WSys} {sp : Spec} (hw : TInv a pid w sp) {op : Op} {os : WOs} {o : Out} {ops : List BOp}
    (hwf : op.WF a.appsize) (hlog : sp.farm = true → (sp.step (w.fill pid os op)).1.log.length < W) (hat : w.attempt pid op os = some (w', o, ops))
    (hq1 : op.writes = false) (hdry : ∀ k' buf niov env, op = .readv k' buf niov env → sp.farm = false ∧ sp.unread = []) :
    ∀ x ∈ ops, ∀ i os', x ≠ .wake i os' := by
  obtain ⟨_, ho, hops, hb⟩ := wattempt_spec hw hwf hlog hat
  have hwf' : (w.fill pid os op).WF sp.app.length := by rw [hw.app]; exact fill_wf.2 hwf
  have hsent := sent_step hw.rel (w.fill pid os op) hwf' (by
    intro k iov e1 e2 sh e
    cases op <;> simp only [WSys.fill] at e <;> cases e
    cases hq1) hlog
  intro x hx i os' e
  subst e
  rw [hops] at hx
  cases op with
  | «open» k0 flags env =>
    simp only [WSys.fill] at hx
    unfold WSys.bops at hx; dsimp only at hx
    split at hx
    · unfold open_blockwake at hx
      dsimp only at hx
      repeat' split at hx
      all_goals simp at hx
    · cases hx
  | readv k' buf niov env =>
    obtain ⟨hfm, hun⟩ := hdry _ _ _ _ rfl
    have hdry : (w.sys.signal (w.fill pid os (.readv k' buf niov env))).wake = false := by
      by_cases hl : ∃ sh2, sp.hs k' = .live sh2
      · obtain ⟨sh2, h2⟩ := hl
        refine hsent.dry _ _ _ _ sh2 rfl h2 ?_
        unfold Spec.readable; rw [if_neg (by simp [hfm])]; exact hun
      · cases hwk : (w.sys.signal (w.fill pid os (.readv k' buf niov env))).wake
        · rfl
        · obtain ⟨sh2, h2, _⟩ := signal_wake hw.rel hwk
          rw [fill_handle] at h2
          exact absurd ⟨sh2, h2⟩ hl
    simp only [WSys.fill] at hx hdry
    unfold WSys.bops at hx; dsimp only at hx
    rw [hdry] at hx
    simp only [Bool.false_eq_true, if_false, List.nil_append] at hx
    split at hx
    · simp at hx
    · cases hx
  | stat => cases hx
  | farmStat => cases hx
  | appdata => cases hx
  | _ => cases hq1

/-- Two specification states represented by the same system agree on being drained. -/
theorem drained_congr {s : Sys} {sp sp2 : Spec} (hr : Rel s sp) (hr2 : Rel s sp2) {w : WSys} {k : Nat} (h : Drained k w sp) : Drained k w sp2 := by
  have hk := hr.hs k
  have hk2 := hr2.hs k
  obtain ⟨h1, h2⟩ := h
  cases e : s.hs k with
  | never =>
    rw [e] at hk
    cases e1 : sp.hs k <;> rw [e1] at hk <;> first | exact absurd e1 h1 | exact hk.elim
  | gone b =>
    rw [e] at hk2
    cases e2 : sp2.hs k <;> rw [e2] at hk2 <;> first | exact hk2.elim | skip
    exact ⟨by simp [e2], fun sh hs => by rw [e2] at hs; cases hs⟩
  | live hd =>
    obtain ⟨sh, f1, f2, f3⟩ := readable_unique hr e
    obtain ⟨sh2, g1, g2, g3⟩ := readable_unique hr2 e
    obtain ⟨d1, d2, d3, d4⟩ := h2 sh f1
    refine ⟨by simp [g1], fun sh' hs => ?_⟩
    rw [g1] at hs; cases hs
    refine ⟨by rw [g2, ← f2]; exact d1, by rw [g2, ← f2]; exact d2, by rw [g3, ← f3]; exact d3, d4⟩

/-- A death inside a quiet step keeps a drained reader of another process drained. -/
theorem drained_death {a : InitArgs} {pid : Nat → Nat} {hist : List Op} {w w' : WSys} {x : WOp} {sp sp' : Spec} {ops : List BOp} (hr : Repr a pid hist w sp)
    (hre : BInv w.b) (hs : ADeath a pid hist w x ops w') (hc : w.b.CleanRun ops) {k : Nat} (hd : Drained k w sp) (hq : Quiet k w x) (hrel : Rel w'.sys sp') :
    Drained k w' sp' := by
  obtain ⟨hw, hp, hl⟩ := hr
  obtain ⟨hwf, hfarm, hcalm, hst⟩ := hs
  clear hcalm
  obtain ⟨r, b', hcp⟩ := hst.corpse hw hwf
  have hring : w'.sys.ring = r := by rw [hcp.eq]; rfl
  have hgf := hw.rel.ring.gf
  refine drained_corpse hw hre hc hcp hrel hd ?_ ?_
  all_goals try rw [← hring]
  all_goals clear hcp hrel hring
  all_goals intro sh hk hpk
  all_goals obtain ⟨g1, g2, g3, g4⟩ := hd.2 sh hk
  -- what an attempt of another process does
  all_goals
    have hdry : ∀ op : Op, op.handle = x.actor → (sp.farm = true → ∀ k' buf niov env, op = .readv k' buf niov env → k' = k) →
        ∀ k' buf niov env, op = .readv k' buf niov env → sp.farm = false ∧ sp.unread = [] := by
      rintro op ho hq2 k' buf niov env rfl
      have hfm : sp.farm = false := by
        cases h : sp.farm
        · rfl
        · have := hq2 h _ _ _ _ rfl
          rw [show k' = x.actor from ho] at this
          exact absurd (by rw [this]) hpk
      refine ⟨hfm, ?_⟩
      unfold Spec.readable at g3; rw [if_neg (by simp [hfm])] at g3; exact g3
    have hbound : ∀ (op : Op) (os : WOs), x.issued w = [op] ∨ (∃ op0 e, x.issued w = [op0] ∧ op = op0.withEnv e) →
        (sp.farm = true → (sp.step (w.fill pid os op)).1.log.length < W) ∧ op.writes = false ∧
        (sp.farm = true → ∀ k' buf niov env, op = .readv k' buf niov env → k' = k) := by
      intro op os hi
      obtain ⟨g1, _⟩ := count_bound (op := w.fill pid os op) hp hl
      have ho : offered [w.fill pid os op] = offered (x.issued w) ∧ (x.issued w).length = 1 ∧ op.writes = false ∧
          (sp.farm = true → ∀ k' buf niov env, op = .readv k' buf niov env → k' = k) := by
        rw [offered_fill]
        rcases hi with hi | ⟨op0, e, hi, rfl⟩
        · obtain ⟨q1, q2⟩ := hq op (by rw [hi]; simp)
          rw [hi]; exact ⟨rfl, rfl, q1, fun hf => q2 (by rw [hgf]; exact hf)⟩
        · obtain ⟨q1, q2⟩ := hq op0 (by rw [hi]; simp)
          rw [hi, offered_withEnv, withEnv_writes]
          refine ⟨rfl, rfl, q1, fun hf k' buf niov env he => ?_⟩
          cases op0 <;> simp only [Op.withEnv] at he <;> cases he
          exact q2 (by rw [hgf]; exact hf) _ _ _ _ rfl
      rw [offered_append, ho.1, ← offered_append] at g1
      have hlen : (hist ++ [w.fill pid os op]).length = (hist ++ x.issued w).length := by simp [ho.2.1]
      rw [hlen] at g1
      refine ⟨fun hf => ?_, ho.2.2⟩
      have h1 := g1 (farm_flag hw.gf hf)
      have h2 := hfarm (farm_flag hw.gf hf)
      omega
  · -- the ring
    have main : ∀ (op : Op) (os : WOs) (r : Ring), op.handle = x.actor → op.WF a.appsize →
        (x.issued w = [op] ∨ (∃ op0 e, x.issued w = [op0] ∧ op = op0.withEnv e)) → r ∈ w.sys.points (w.fill pid os op) →
        r = { w.sys.ring with stat := r.stat, app := r.app } := by
      intro op os r ho hwf hi hr
      obtain ⟨_, b2, b3⟩ := hbound op os hi
      refine looker_points hw.rel (by rw [hw.app]; exact fill_wf.2 hwf) ?_ ?_ hr
      · rw [fill_writes]; exact b2
      · intro k' buf niov env e
        obtain ⟨k1, buf1, niov1, env1, e1⟩ := fill_readv.1 ⟨_, _, _, _, e⟩
        exact .inr (hdry op ho b3 _ _ _ _ e1).2
    cases hst with
    | call hca hat hr hcons hcut => exact main _ _ _ rfl (hwf _ _ rfl) (.inl rfl) hr
    | resume hb hat hr hcons hcut =>
      rename_i j op env os o r b'
      have hiss : (WOp.resume j env os).issued w = [op] := by unfold WOp.issued; dsimp only; rw [hb]
      obtain ⟨e0, e2, _⟩ := hw.blk j op true hb
      exact main _ _ _ ((withEnv_handle op env).trans e0) (withEnv_wf.2 e2) (.inr ⟨op, env, hiss, rfl⟩) hr
    | wakeup hb hcut => rfl
    | interrupt hb ho hcut => rfl
  · -- the block/wake calls
    have main : ∀ (op : Op) (os : WOs) {o : Out} {w1 : WSys}, op.handle = x.actor → op.WF a.appsize →
        (x.issued w = [op] ∨ (∃ op0 e, x.issued w = [op0] ∧ op = op0.withEnv e)) → w.attempt pid op os = some (w1, o, ops) →
        ∀ y ∈ ops, ∀ i os', y ≠ .wake i os' := by
      intro op os o w1 ho hwf hi hat
      obtain ⟨b1, b2, b3⟩ := hbound op os hi
      exact quiet_no_wake hw hwf b1 hat b2 (hdry op ho b3)
    cases hst with
    | call hca hat hr hcons hcut => exact main _ _ rfl (hwf _ _ rfl) (.inl rfl) hat
    | resume hb hat hr hcons hcut =>
      rename_i j op env os o r b'
      have hiss : (WOp.resume j env os).issued w = [op] := by unfold WOp.issued; dsimp only; rw [hb]
      obtain ⟨e0, e2, _⟩ := hw.blk j op true hb
      exact main _ _ ((withEnv_handle op env).trans e0) (withEnv_wf.2 e2) (.inr ⟨op, env, hiss, rfl⟩) hat
    | wakeup hb hcut =>
      intro y hy; simp only [List.mem_singleton] at hy; subst hy; intro _ _ e; cases e
    | interrupt hb ho hcut =>
      intro y hy
      rw [ho] at hy
      split at hy
      · simp only [List.mem_cons, List.not_mem_nil, or_false] at hy
        rcases hy with rfl | rfl <;> (intro _ _ e; cases e)
      · cases hy

/-- **C36**, second part. After a read through a non-blocking handle that did not fail (did not return -1) and left nothing to
read, the selectable descriptor is not readable; and it stays so, as long as the handle is open, whatever the processes do except
write (and, on a farm ring, read through other handles), also if they are killed inside such a call.  Missing: failing calls of `bw_force`, whose result `shr_readv` ignores
(src/shr.c:807, 851); steps that are not clean; and reads by others on a farm ring, which wake
writers only, unless the kernel has given the reader's socket a name that is left over in the slot of a dead writer. -/
theorem C36_drained_is_not_readable_partial {a : InitArgs} {pid : Nat → Nat} {hist : List Op} {w w' : WSys} (h : CReach a pid hist w)
    {k : Nat} {buf : List Byte} {niov : Nat} {env : Env} {os : WOs} {rc : Int} {iov : List (Nat × Nat)} {buf' : List Byte} {ops : List BOp}
    (hs : AStep a pid hist w (.call (.readv k buf niov env) os) w' (.read rc iov buf') ops) (hc : w.b.CleanRun ops)
    (hsig : w.b.Succeed (BOp.forces (2 * k)) ops) (hrc : rc ≠ -1)
    {hd : Handle} (hk : w'.sys.hs k = .live hd) (hn : hd.flags.has SHR_NONBLOCK = true) (hempty : w'.sys.ring.readableBy hd = []) :
    w'.b.pending (2 * k) = 0 ∧
    ∀ hist1 hist2 w2, CPath a pid (fun w x ops => Quiet k w x ∧ (x.isOpen = false → w.b.Succeed (BOp.forces (2 * k)) ops)) (Quiet k) hist1 w' hist2 w2 → hist1 = hist ++ [.readv k buf niov env] →
      ∀ hd2, w2.sys.hs k = .live hd2 → w2.b.pending (2 * k) = 0 := by
  have hreach' := CReach.step h hs hc
  have hre := h.breach
  obtain ⟨sp, hw, hp, hl⟩ := h.any.state
  have hs0 := hs
  obtain ⟨hwf, hfarm, hst⟩ := hs
  have hdr : ∃ sp', Rel w'.sys sp' ∧ Drained k w' sp' := by
    cases hst with
    | call hca hat =>
      have hwf := hwf _ _ rfl
      have hlog : sp.farm = true → (sp.step (w.fill pid os (.readv k buf niov env))).1.log.length < W := by
        intro hf
        obtain ⟨g1, _⟩ := count_bound (op := w.fill pid os (.readv k buf niov env)) hp hl
        rw [offered_append, offered_fill, ← offered_append] at g1
        have hlen : (hist ++ [w.fill pid os (.readv k buf niov env)]).length = (hist ++ [Op.readv k buf niov env]).length := by simp
        rw [hlen] at g1
        exact Nat.lt_of_le_of_lt (g1 (farm_flag hw.gf hf)) (hfarm (farm_flag hw.gf hf))
      obtain ⟨hrel, ho, hops, hb⟩ := wattempt_spec hw hwf hlog hat
      refine ⟨_, hrel, ?_⟩
      obtain ⟨sh', e1, e2, e3⟩ := readable_unique hrel hk
      have hno : ∀ j flags e, Op.readv k buf niov env ≠ .open j flags e := by intro _ _ _ e; cases e
      refine ⟨by rw [e1]; simp, fun sh2 hs2 => ?_⟩
      rw [e1] at hs2; cases hs2
      obtain ⟨sh, f1, f2⟩ := step_kept sp (w.fill pid os (.readv k buf niov env)) (fill_open hno) sh' e1
      have f1 : sp.hs k = .live sh := f1
      have hro : sh.flags.has SHR_RDONLY = true := by
        cases hro : sh.flags.has SHR_RDONLY
        · exfalso
          have : (sp.step (w.fill pid os (.readv k buf niov env))).2 = .misuse := by
            simp only [WSys.fill]
            unfold Spec.step; dsimp only
            rw [f1]; dsimp only
            rw [if_pos hro]
          rw [this] at ho; cases ho
        · rfl
      rw [hempty] at e3
      have hn' : sh'.flags.has SHR_NONBLOCK = true := by rw [e2]; exact hn
      refine ⟨f2.flags ▸ hro, hn', e3, ?_⟩
      have hwf' : (w.fill pid os (.readv k buf niov env)).WF sp.app.length := by rw [hw.app]; exact fill_wf.2 hwf
      have hsent := sent_step hw.rel (w.fill pid os (.readv k buf niov env)) hwf' (by intro _ _ _ _ _ e; cases e) hlog
      have hown := own_after (os := os) (o := .read rc iov buf') (sh' := sh') hw hno f1 f2 (by intro _ _ e; cases e)
      rw [← hops] at hown
      obtain ⟨_, _, p1, p2⟩ := hown.rd hro
      have p2 := p2 ⟨hre, hc⟩ hsig
      have hfrc := hsent.frc _ _ _ _ sh' rfl e1 hn'
      rw [hb]
      cases hf : (w.sys.signal (w.fill pid os (.readv k buf niov env))).force with
      | some f =>
        rw [hf] at hfrc
        have := p2 f hf
        have hff : f = false := by rw [show f = _ from hfrc, e3]; rfl
        rw [hff] at this
        simp only [Bool.false_eq_true, iff_false] at this
        have h0 : (Op.readv k buf niov env).handle = k := rfl
        rw [h0] at this
        omega
      | none =>
        rw [hf] at hfrc
        rcases hfrc.2.2 with h | h
        · rw [h] at ho; cases ho
        · rw [h] at ho; cases ho; exact absurd rfl hrc
  obtain ⟨sp', hrel', hdr⟩ := hdr
  obtain ⟨sh', e1, _, _⟩ := readable_unique hrel' hk
  refine ⟨(hdr.2 sh' e1).2.2.2, ?_⟩
  intro hist1 hist2 w2 hpath hh1
  have key : ∀ hist1 w1 hist2 w2, CPath a pid (fun w x ops => Quiet k w x ∧ (x.isOpen = false → w.b.Succeed (BOp.forces (2 * k)) ops)) (Quiet k) hist1 w1 hist2 w2 →
      CReach a pid hist1 w1 → (∃ sp, Rel w1.sys sp ∧ Drained k w1 sp) → CReach a pid hist2 w2 ∧ ∃ sp, Rel w2.sys sp ∧ Drained k w2 sp := by
    intro hist1 w1 hist2 w2 hp h1 h2
    induction hp with
    | refl => exact ⟨h1, h2⟩
    | step _ hst hc1 hq ih =>
      obtain ⟨i1, sp2, i2, i3⟩ := ih h1 h2
      obtain ⟨sp3, j1⟩ := i1.any.state
      exact ⟨.step i1 hst hc1, drained_step j1 i1.breach hst hc1 hq.2 (drained_congr i2 j1.inv.rel i3) hq.1⟩
    | dies _ hst hc1 hq ih =>
      obtain ⟨i1, sp2, i2, i3⟩ := ih h1 h2
      obtain ⟨sp3, j1⟩ := i1.any.state
      obtain ⟨sp4, j2, _⟩ := death_inv j1 hst
      exact ⟨.dies i1 hst hc1, sp4, j2.inv.rel, drained_death j1 i1.breach hst hc1 (drained_congr i2 j1.inv.rel i3) hq j2.inv.rel⟩
  subst hh1
  obtain ⟨_, sp2, i2, i3⟩ := key _ _ _ _ hpath hreach' ⟨sp', hrel', hdr⟩
  intro hd2 hk2
  obtain ⟨sh2, g1, _, _⟩ := readable_unique i2 hk2
  exact (i3.2 sh2 g1).2.2.2

end Shr
