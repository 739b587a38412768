import Verif.Proof.LiveFarm
import Verif.Props.WakeDemo
/-! # C83: what waits goes on — every message is delivered if the readers keep reading -/
namespace Shr

/-! ## Specification -/

/-- The handle that makes a step. -/
def WOp.by : WOp → Nat
  | .call op _ => op.handle
  | .wakeup k _ => k
  | .resume k _ _ => k
  | .interrupt k _ _ => k
  | .kill _ => 0

/-- A finite sequence of eager steps in which no block/wake call and no msync of a resumed call fails.  `evs` lists, step by step, the handle and what its call
returned (`blocked`: it waits). -/
inductive ERun (a : InitArgs) (pid : Nat → Nat) : List Op → WSys → List (Nat × Out) → List Op → WSys → Prop where
  | refl (hist : List Op) (w : WSys) : ERun a pid hist w [] hist w
  | step {hist hist1 : List Op} {w w1 w2 : WSys} {evs : List (Nat × Out)} {x : WOp} {o : Out} {ops : List BOp} : ERun a pid hist w evs hist1 w1 →
      EStep a pid (fun _ => true) hist1 w1 x w2 o ops → (∀ k env os, x = .resume k env os → env.syncOk = true) →
      ERun a pid hist w (evs ++ [(x.by, o)]) (hist1 ++ x.issued w1) w2

/-- Nothing more happens: no eager step is possible (with well-behaved system calls). -/
def AtRest (a : InitArgs) (pid : Nat → Nat) (hist : List Op) (w : WSys) : Prop :=
  ¬ ∃ x w' o ops, EStep a pid (fun _ => true) hist w x w' o ops ∧ ∀ k env os, x = .resume k env os → env.syncOk = true

/-- The messages that handle `k` waits to put into the ring. -/
def WSys.waitingMsgs (w : WSys) (k : Nat) : List Msg :=
  match w.blk k with
  | some (op, _) => if op.writes then w.sys.wants op else []
  | none => []

/-- Handle `k` waits in a write, flush or close. -/
def WSys.writerWaits (w : WSys) (k : Nat) : Prop := ∃ op b, w.blk k = some (op, b) ∧ op.writes = true

/-- What the call returns if it succeeds: a write or flush the number of bytes, a close nothing. -/
def Succeeds (op : Op) (new : List Msg) (o : Out) : Prop :=
  match op with
  | .close _ _ => o = .closed
  | _ => o = .wrote (bytesOf new)

/-! ## C83: there is no infinite eager run -/

theorem no_descent {α β : Type} {r : β → β → Prop} (hr : WellFounded r) (m : α → β) (f : Nat → α) (h : ∀ i, r (m (f (i + 1))) (m (f i))) : False := by
  have : ∀ b, ∀ i, m (f i) = b → False := by
    intro b
    induction b using hr.induction with
    | _ b ih =>
      intro i e
      exact ih (m (f (i + 1))) (e ▸ h i) (i + 1) rfl
  exact this _ 0 rfl

/-- **C83**, first part. On a ring that is not a farm: if processes only take wake-ups, resume waiting calls and read with sufficient buffers, then,
after finitely many steps, no further such step is possible.  (Wake-ups may fail in these steps; the readers' `bw_force` may not.) -/
theorem C83_no_endless_run {a : InitArgs} {pid : Nat → Nat} {S : BOp → Bool} (hS : ∀ k y, BOp.forces (2 * k) y = true → S y = true)
    (hist : Nat → List Op) (ws : Nat → WSys) (x : Nat → WOp) (o : Nat → Out) (ops : Nat → List BOp) (h0 : CReach a pid (hist 0) (ws 0))
    (hf : a.flags.has SHR_FARM = false) (hh : ∀ i, hist (i + 1) = hist i ++ (x i).issued (ws i))
    (hs : ∀ i, EStep a pid S (hist i) (ws i) (x i) (ws (i + 1)) (o i) (ops i)) : False := by
  obtain ⟨N, hN⟩ := h0.any.bounded
  have hf0 : (ws 0).sys.ring.gflags.has SHR_FARM = false := by
    obtain ⟨sp, hrep⟩ := h0.any.state
    rw [hrep.inv.rel.ring.gf, hrep.inv.gf, gflags_farm]
    exact hf
  have all : ∀ i, CReach a pid (hist i) (ws i) ∧ (ws i).sys.ring.gflags.has SHR_FARM = false ∧ (ws i).Below N := by
    intro i
    induction i with
    | zero => exact ⟨h0, hf0, hN⟩
    | succ i ih =>
      obtain ⟨i1, i2, i3⟩ := ih
      obtain ⟨_, g2, g3⟩ := eager_decreases hS i1 i2 (hs i) i3
      refine ⟨?_, by rw [g3]; exact i2, g2⟩
      rw [hh i]
      exact .step i1 (hs i).step (hs i).clean
  exact no_descent lex4_wf (fun w => w.mu N) ws fun i => (eager_decreases hS (all i).1 (all i).2.1 (hs i) (all i).2.2).1

/-! ## Well-behaved system calls -/

theorem syncSlot_default (k : Kern) (h : BwH) (w : WakeT) (n : Nat) : (syncSlot k {} h w n).2.2 = true := by
  have key : ∀ (h : BwH) (w : WakeT), (open_socket k {} h w n).2.2 = true := by
    intro h w
    unfold open_socket connect
    dsimp only
    rw [if_neg (by simp), if_pos rfl]
    cases e : k.lookup (w.name n) with
    | some sid => rfl
    | none =>
      dsimp only
      have hh : k.held (h.wr n).pid (w.name n) = false := by
        unfold Kern.lookup at e
        rw [Option.map_eq_none_iff, List.find?_eq_none] at e
        unfold Kern.held
        rw [List.any_eq_false]
        intro s hs
        have := e s hs
        simp only [beq_iff_eq] at this
        simp [this]
      rw [if_pos]
      unfold has_pid_socket
      rw [hh]; rfl
  have fin : ∀ w2 : WakeT, (if (h.wr n).pid ≠ 0 ∧ w2.fd n = none then open_socket k {} h { w2 with name := upd w2.name n (h.wr n).name } n
      else (h, w2, true)).2.2 = true := by
    intro w2
    split
    · exact key _ _
    · rfl
  exact fin _

theorem bw_wake_default (k : Kern) (h : BwH) (w : WakeT) : (bw_wake k {} h w).2.2.2 = true := by
  have loop : ∀ (l : List Nat) (h : BwH) (w : WakeT), (syncLoop k {} l h w).2.2 = true := by
    intro l
    induction l with
    | nil => intro h w; rfl
    | cons n ns ih =>
      intro h w
      unfold syncLoop
      have := syncSlot_default k h w n
      generalize syncSlot k {} h w n = y at *
      obtain ⟨h', w', b⟩ := y
      dsimp only at this
      subst this
      exact ih h' w'
  have hsync : (bw_sync k {} h w).2.2 = true := by
    unfold bw_sync
    split
    · rfl
    · have := loop (List.range BW_WAITMAX) h w
      generalize syncLoop k {} (List.range BW_WAITMAX) h w = y at *
      obtain ⟨h', w', b⟩ := y
      dsimp only at this
      subst this
      rfl
  unfold bw_wake
  generalize bw_sync k {} h w = y at *
  obtain ⟨h', w', b⟩ := y
  dsimp only at hsync
  subst hsync
  rfl

theorem wake_default {b : BSys} {i hi p : Nat} {v : WakeT} (e : b.ts i = some (.wake hi p v)) : (b.step (.wake i {})).2 = true := by
  unfold BSys.step BSys.wake
  dsimp only
  rw [e]
  dsimp only
  exact bw_wake_default _ _ _

theorem force_default {b : BSys} {i hi p : Nat} {t : WaitT} (e : b.ts i = some (.wait hi p t)) (f : Bool) : (b.step (.force i f {})).2 = true := by
  unfold BSys.step BSys.force
  dsimp only
  rw [e]
  dsimp only
  unfold bw_force
  rw [if_neg (by simp)]
  repeat' split
  all_goals first | rfl | (rename_i h; cases h)

theorem ready_default {b : BSys} {i hi p : Nat} {t : WaitT} (e : b.ts i = some (.wait hi p t)) : (b.step (.ready i {})).2 = true := by
  unfold BSys.step BSys.ready
  dsimp only
  rw [e]
  rfl

/-- With well-behaved system calls, the block/wake calls of a read, and of a waiting write, flush or close, are clean and succeed. -/
theorem bops_default {a : InitArgs} {pid : Nat → Nat} {w : WSys} {sp : Spec} (hw : TInv a pid w sp) {op : Op} {sh : SHandle} (hk : sp.hs op.handle = .live sh)
    (hop : (op.writes = true ∧ sh.flags.has SHR_WRONLY = true ∧ sh.canWait = true) ∨ ((∃ k buf niov env, op = .readv k buf niov env) ∧ sh.flags.has SHR_RDONLY = true)) (o : Out) :
    w.b.CleanRun (w.bops pid {} o op) ∧ w.b.Succeed (fun _ => true) (w.bops pid {} o op) := by
  have nf : ∀ (b : BSys) i, b.Clean (.wake i {}) := by intro b i n; simp
  rcases hop with ⟨h1, h2, h3⟩ | ⟨⟨k, buf, niov, env, rfl⟩, h2⟩
  · obtain ⟨⟨v, e⟩, _⟩ := hw.wrl _ sh hk h2
    have closes : ∀ (b : BSys) c i j, b.CleanRun (if c = true then [.close i, .close j] else []) ∧ b.Succeed (fun _ => true) (if c = true then [.close i, .close j] else []) := by
      intro b c i j
      cases c
      · exact ⟨trivial, trivial⟩
      · exact ⟨⟨trivial, trivial, trivial⟩, fun _ => rfl, fun _ => rfl, trivial⟩
    cases op with
    | writev k iov e1 e2 =>
      unfold WSys.bops
      dsimp only
      split
      · exact ⟨⟨nf _ _, trivial⟩, fun _ => wake_default e, trivial⟩
      · exact ⟨trivial, trivial⟩
    | flush k wait env =>
      have hpre := flushPre_nil hw.rel (pid := pid) hk h3 wait env {}
      unfold WSys.bops
      dsimp only
      rw [show w.flushPre pid k wait env {} = [] from hpre, List.nil_append]
      split
      · exact ⟨⟨nf _ _, trivial⟩, fun _ => wake_default e, trivial⟩
      · exact ⟨trivial, trivial⟩
    | close k env =>
      unfold WSys.bops
      dsimp only
      by_cases hc : o = .closed ∧ True
      · rw [if_pos (show o = .closed ∧ true = true from ⟨hc.1, rfl⟩)]
        split
        · exact ⟨⟨nf _ _, trivial, trivial, trivial⟩, fun _ => wake_default e, fun _ => rfl, fun _ => rfl, trivial⟩
        · exact ⟨⟨trivial, trivial, trivial⟩, fun _ => rfl, fun _ => rfl, trivial⟩
      · rw [if_neg (show ¬ (o = .closed ∧ true = true) from fun h => hc ⟨h.1, trivial⟩), List.append_nil]
        split
        · exact ⟨⟨nf _ _, trivial⟩, fun _ => wake_default e, trivial⟩
        · exact ⟨trivial, trivial⟩
    | _ => cases h1
  · obtain ⟨⟨t, e⟩, v, e'⟩ := hw.rdl k sh hk h2
    unfold WSys.bops
    dsimp only
    have frc : ∀ (b : BSys) (f : Option Bool), b.ts (2 * k) = some (.wait 0 (pid k) t) →
        b.CleanRun (match f with | some f => [.force (2 * k) f {}] | none => []) ∧
        b.Succeed (fun _ => true) (match f with | some f => [.force (2 * k) f {}] | none => []) := by
      intro b f e
      cases f with
      | none => exact ⟨trivial, trivial⟩
      | some f => exact ⟨⟨trivial, trivial⟩, fun _ => force_default e f, trivial⟩
    split
    · have e2 : (w.b.step (.wake (2 * k + 1) {})).1.ts (2 * k) = some (.wait 0 (pid k) t) := step_waiting e (by simp) (by simp)
      obtain ⟨g1, g2⟩ := frc _ (w.sys.signal (.readv k buf niov env)).force e2
      exact ⟨⟨nf _ _, g1⟩, fun _ => wake_default e', g2⟩
    · exact frc _ _ e

/-! ## C83: at rest, everything has been delivered -/

/-- What a waiting write, flush or close wants to put into the ring fits into an empty one. -/
theorem wants_fit {a : InitArgs} {pid : Nat → Nat} {hist : List Op} {w : WSys} (h : AReach a pid hist w) {k : Nat} {op : Op} {b : Bool}
    (hb : w.blk k = some (op, b)) (hw : op.writes = true) : Fits w.sys.ring.n w.sys.ring.mm [] (w.sys.wants op) := by
  obtain ⟨sp, hrep⟩ := h.state
  obtain ⟨e0, _, sh, e1, e2⟩ := hrep.inv.blk _ _ _ hb
  have hr := hrep.inv.rel
  rw [wants_eq hr (by rw [e0]; exact e1) hw, hr.ring.n, hr.ring.mm]
  obtain ⟨hd, _, g⟩ := hr.live' e1
  have hpend : Fits sp.cap sp.maxm [] sh.pend := by
    have g2 := g.csz
    have g3 := g.cvt
    have g4 := g.cache.nle
    have g5 := g.cache.vle
    unfold Fits
    simp only [bytesOf, List.map_nil, List.sum_nil, List.length_nil, Nat.zero_add] at *
    omega
  rcases e2 with ⟨⟨_, _, _, _, rfl⟩, _⟩ | ⟨_, _, _, _, e3⟩
  · cases hw
  cases op with
  | writev k' iov f1 f2 =>
    obtain ⟨_, hL⟩ := e3 _ _ _ _ rfl
    have := hL.2.2
    unfold Op.wanted Fits
    simp only [bytesOf, List.map_nil, List.sum_nil, List.length_nil, Nat.zero_add] at *
    omega
  | flush | close => exact hpend
  | _ => cases hw

/-- At rest no call has been woken, no waiting call has a wake-up pending, no blocking reader is idle, and no idle reader's descriptor is readable. -/
theorem rest_facts {a : InitArgs} {pid : Nat → Nat} {hist : List Op} {w : WSys} (h : AReach a pid hist w)
    (hroom : a.flags.has SHR_FARM = true → (hist.length + 1) * offered hist < W) (hrest : AtRest a pid hist w) :
    (∀ k op b, w.blk k = some (op, b) → b = false ∧ w.b.pending op.waitsOn = 0) ∧
    (∀ k hd, w.sys.hs k = .live hd → hd.flags.has SHR_RDONLY = true → w.blk k = none → hd.flags.has SHR_NONBLOCK = true ∧ w.b.pending (2 * k) = 0) := by
  obtain ⟨sp, hrep⟩ := h.state
  have hw := hrep.inv
  have cnt : ∀ op : Op, offered [op] = 0 → a.flags.has SHR_FARM = true → (hist ++ [op]).length * offered (hist ++ [op]) < W := by
    intro op h0 e
    rw [offered_append, h0, List.length_append]
    exact hroom e
  refine ⟨fun k op b hb => ?_, fun k hd hk hro hb => ?_⟩
  · cases b with
    | true =>
      exfalso
      have cnt' : a.flags.has SHR_FARM = true → (hist ++ [op]).length * offered (hist ++ [op]) < W := by
        intro e
        refine cnt op ?_ e
        obtain ⟨_, _, _, rfl⟩ := farm_waits h (by rw [hw.rel.ring.gf, hw.gf, gflags_farm]; exact e) hb
        rfl
      have hiss : ∀ env os, (WOp.resume k env os).issued w = [op] := by intro env os; unfold WOp.issued; dsimp only; rw [hb]
      obtain ⟨w', o, ops, hst⟩ := (C55_no_fault h {}).2 k op {} hb cnt'
      refine hrest ⟨_, w', o, ops, ⟨⟨?_, fun e => by rw [hiss]; exact cnt' e, hst⟩, ?_, ?_, rfl⟩, ?_⟩
      · intro _ _ e; cases e
      all_goals try
        cases hst with
        | resume hb' hat =>
          rw [hb] at hb'; cases hb'
          have hops : ops = w.bops pid {} o (w.fill pid {} (op.withEnv {})) := by
            unfold WSys.attempt at hat
            split at hat <;> cases hat
            rfl
          obtain ⟨e1, e2, sh, e3, e4⟩ := hw.blk k op true hb
          have := bops_default hw (op := w.fill pid {} (op.withEnv {})) (sh := sh) (by rw [fill_handle, withEnv_handle, e1]; exact e3) (by
            rcases e4 with ⟨⟨_, _, _, _, rfl⟩, h, _⟩ | ⟨h, h', h'', _⟩
            · exact .inr ⟨⟨_, _, _, _, rfl⟩, h⟩
            · exact .inl ⟨by rw [fill_writes, withEnv_writes]; exact h, h', h''⟩) o
          rw [hops]
          first | exact this.1 | exact this.2
      · rintro _ _ _ e; cases e; rfl
    | false =>
      refine ⟨rfl, ?_⟩
      rcases Nat.eq_zero_or_pos (w.b.pending op.waitsOn) with h0 | h0
      · exact h0
      exfalso
      obtain ⟨e1, t, e2⟩ := C55_waits_on_own_handle h hb
      have hr := ready_default e2
      refine hrest ⟨.wakeup k {}, _, _, _, ⟨⟨?_, fun e => (by
        show (hist ++ []).length * offered (hist ++ []) < W
        rw [List.append_nil]
        exact Nat.lt_of_le_of_lt (Nat.mul_le_mul_right _ (Nat.le_succ _)) (hroom e)), .wakeup hb h0 hr⟩, ⟨trivial, trivial⟩, ⟨fun _ => hr, trivial⟩, trivial⟩, ?_⟩
      · intro _ _ e; cases e
      · rintro _ _ _ e; cases e
  · obtain ⟨sh, g1, g2⟩ := hw.rel.live hk
    by_cases hidle : hd.flags.has SHR_NONBLOCK = true ∧ w.b.pending (2 * k) = 0
    · exact hidle
    exfalso
    have hn : w.sys.ring.n < W := by
      have := hw.rel.ring.cap_le
      rw [hw.rel.ring.n]
      exact Nat.lt_of_le_of_lt this (by decide)
    have hwf : (Op.readv k (List.replicate w.sys.ring.n 0) 1 {}).WF a.appsize := by
      show (List.replicate w.sys.ring.n 0).length < W
      simpa using hn
    have hca : w.Callable (.readv k (List.replicate w.sys.ring.n 0) 1 {}) := by
      refine ⟨hb, ?_, by intro _ _ _ e; cases e⟩
      show needsFlush (w.sys.hs k) _ = false
      rw [hk]; rfl
    obtain ⟨w', o, ops, hst⟩ := (C55_no_fault h {}).1 _ hca hwf (cnt _ rfl)
    refine hrest ⟨.call (.readv k (List.replicate w.sys.ring.n 0) 1 {}) {}, w', o, ops, ⟨⟨?_, cnt (.readv k (List.replicate w.sys.ring.n 0) 1 {}) rfl, hst⟩, ?_, ?_, ?_⟩, ?_⟩
    · intro _ _ e; cases e; exact hwf
    rotate_left 2
    · refine ⟨rfl, by simp, by decide, hd, hk, hro, ?_⟩
      cases hnb : hd.flags.has SHR_NONBLOCK with
      | false => exact .inl rfl
      | true =>
        right
        rcases Nat.eq_zero_or_pos (w.b.pending (2 * k)) with h0 | h0
        · exact absurd ⟨hnb, h0⟩ hidle
        · exact h0
    · rintro _ _ _ e; cases e
    all_goals
      cases hst with
      | call _ hat =>
        have hops : ops = w.bops pid {} o (w.fill pid {} (.readv k (List.replicate w.sys.ring.n 0) 1 {})) := by
          unfold WSys.attempt at hat
          split at hat <;> cases hat
          rfl
        have := bops_default hw (op := w.fill pid {} (.readv k (List.replicate w.sys.ring.n 0) 1 {})) (sh := sh) g1
          (.inr ⟨⟨_, _, _, _, rfl⟩, by rw [← g2.flags]; exact hro⟩) o
        rw [hops]
        first | exact this.1 | exact this.2

/-- **C83**, second part. At rest, if a reader is open, the ring is empty and no writer waits.  Here `S` are the calls that have not failed since the last
successful wake-up (see C34): the wake-ups of writers and, for a non-blocking reader, also its own `bw_force`. -/
theorem C83_rest_is_empty {a : InitArgs} {pid : Nat → Nat} {S : BOp → Bool} {hist : List Op} {w : WSys} (h0 : Announced a pid 0 S hist w)
    (h1 : Announced a pid 1 (BOp.wakes 1) hist w) (hf : a.flags.has SHR_FARM = false) (hrest : AtRest a pid hist w) {r : Nat} {hd : Handle}
    (hr : w.sys.hs r = .live hd) (hro : hd.flags.has SHR_RDONLY = true) (hS : ∀ x, BOp.wakes 0 x = true → S x = true)
    (hSr : hd.flags.has SHR_NONBLOCK = true → ∀ x, BOp.forces (2 * r) x = true → S x = true) :
    w.sys.ring.unreadMsgs = [] ∧ ∀ k, ¬ w.writerWaits k := by
  obtain ⟨f1, f2⟩ := rest_facts h0.clean.any (fun e => by rw [hf] at e; cases e) hrest
  obtain ⟨sp, hrep, hj⟩ := h0.readers (k := r) (P := hd.flags.has SHR_NONBLOCK = true) hS hSr
  obtain ⟨sh, e1, e2⟩ := hrep.inv.rel.live hr
  have hfm : sp.farm = false := by unfold Spec.farm; rw [hrep.inv.gf, gflags_farm]; exact hf
  have hU : w.sys.ring.unreadMsgs = [] := by
    rw [hrep.inv.rel.ring.unreadMsgs]
    have hread : sp.readable sh = sp.unread := by unfold Spec.readable; rw [hfm]; rfl
    rw [← hread]
    by_cases hne : sp.readable sh = []
    · exact hne
    exfalso
    have hro' : sh.flags.has SHR_RDONLY = true := by rw [← e2.flags]; exact hro
    cases hb : w.blk r with
    | none =>
      obtain ⟨g1, g2⟩ := f2 r hd hr hro hb
      have := hj sh e1 hro' (.inl ⟨g1, by rw [← e2.flags]; exact g1⟩) hne
      omega
    | some y =>
      obtain ⟨op, b⟩ := y
      obtain ⟨rfl, g2⟩ := f1 r op b hb
      have := hj sh e1 hro' (.inr ⟨op, hb⟩) hne
      obtain ⟨c1, _, sh', c2, c3⟩ := hrep.inv.blk _ _ _ hb
      rw [e1] at c2; cases c2
      rcases c3 with ⟨⟨k', _, _, _, rfl⟩, _⟩ | ⟨_, c3, _⟩
      · have c1 : k' = r := c1
        subst c1
        have g2 : w.b.pending (2 * k') = 0 := g2
        omega
      · have := e2.mode
        rw [hro', c3] at this
        cases this
  refine ⟨hU, ?_⟩
  rintro k ⟨op, b, hb, hw⟩
  obtain ⟨rfl, g2⟩ := f1 k op b hb
  have hwait : op.waitsOn = 2 * k + 1 := by
    obtain ⟨e0, _⟩ := C55_waits_on_own_handle h0.clean.any hb
    subst e0
    cases op <;> first | rfl | cases hw
  rw [hwait] at g2
  refine C35_blocked_writer_partial h1 hb ?_ g2 ?_
  · rintro buf niov env rfl; cases hw
  · rw [hU]; exact wants_fit h0.clean.any hb hw

/-! ## C83: what a run delivers -/

/-- What an eager run from `w` to `w1` has done so far; `order` lists the writers whose calls returned. -/
structure LInv (w w1 : WSys) (evs : List (Nat × Out)) (order : List Nat) : Prop where
  nodup : order.Nodup
  done : ∀ k ∈ order, ¬ w1.writerWaits k ∧ ∃ op b o, w.blk k = some (op, b) ∧ op.writes = true ∧ (k, o) ∈ evs ∧ Succeeds op (w.waitingMsgs k) o
  left : ∀ k op b, w.blk k = some (op, b) → op.writes = true → k ∈ order ∨ ∃ op1 b1, w1.blk k = some (op1, b1) ∧ op1.writes = true ∧
    w1.waitingMsgs k = w.waitingMsgs k ∧ ∀ ms o, Succeeds op1 ms o → Succeeds op ms o
  back : ∀ k, w1.writerWaits k → w.writerWaits k
  msgs : delivered (evs.map Prod.snd) ++ w1.sys.ring.unreadMsgs = w.sys.ring.unreadMsgs ++ order.flatMap w.waitingMsgs
  rdr : ∀ r hd, w.sys.hs r = .live hd → hd.flags.has SHR_RDONLY = true → ∃ hd', w1.sys.hs r = .live hd' ∧ hd'.flags = hd.flags

theorem LInv.refl (w : WSys) : LInv w w [] [] where
  nodup := List.nodup_nil
  done := by intro k hk; cases hk
  left := fun k op b hb hw => .inr ⟨op, b, hb, hw, rfl, fun _ _ h => h⟩
  back := fun _ h => h
  msgs := by simp [delivered]
  rdr := fun r hd h _ => ⟨hd, h, rfl⟩

theorem delivered_ev (evs : List (Nat × Out)) (k : Nat) (o : Out) : delivered ((evs ++ [(k, o)]).map Prod.snd) = delivered (evs.map Prod.snd) ++ o.msgs := by
  simp [delivered]

theorem waitingMsgs_of {w : WSys} {k : Nat} {op : Op} {b : Bool} (hb : w.blk k = some (op, b)) (hw : op.writes = true) : w.waitingMsgs k = w.sys.wants op := by
  unfold WSys.waitingMsgs; rw [hb]; simp [hw]

theorem succeeds_withEnv (op : Op) (env : Env) {ms : List Msg} {o : Out} : Succeeds (op.withEnv env) ms o ↔ Succeeds op ms o := by
  cases op <;> exact Iff.rfl

theorem LInv.step {a : InitArgs} {pid : Nat → Nat} {hist : List Op} {w w1 w2 : WSys} {evs : List (Nat × Out)} {order : List Nat} {x : WOp} {o : Out} {ops : List BOp}
    (h : LInv w w1 evs order) (hre : AReach a pid hist w1) (hf : w1.sys.ring.gflags.has SHR_FARM = false)
    (hs : EStep a pid (fun _ => true) hist w1 x w2 o ops) (hsync : ∀ k env os, x = .resume k env os → env.syncOk = true) :
    ∃ order', LInv w w2 (evs ++ [(x.by, o)]) order' := by
  rcases eager_cases hre hf hs with ⟨k, op, os, rfl, hwk⟩ | ⟨k, op, ht, ⟨hd, hlive⟩, hx⟩
  · -- a wake-up arrives
    obtain ⟨hb, hp, hr, rfl, rfl, rfl⟩ := hwk
    have hwait : ∀ j, WSys.writerWaits { w1 with b := w1.b.runs [.ready op.waitsOn os], blk := upd w1.blk k (some (op, true)) } j ↔ w1.writerWaits j := by
      intro j
      unfold WSys.writerWaits
      dsimp only
      by_cases hj : j = k
      · subst hj
        rw [upd_same, hb]
        constructor
        · rintro ⟨_, _, e, h⟩; cases e; exact ⟨_, _, rfl, h⟩
        · rintro ⟨_, _, e, h⟩; cases e; exact ⟨_, _, rfl, h⟩
      · rw [upd_other _ _ hj]
    refine ⟨order, h.nodup, ?_, ?_, ?_, ?_, h.rdr⟩
    · intro j hj
      obtain ⟨h1, op', b', o', h2, h3, h4, h5⟩ := h.done j hj
      exact ⟨fun e => h1 ((hwait j).1 e), op', b', o', h2, h3, by simp [h4], h5⟩
    · intro j op' b' e1 e2
      rcases h.left j op' b' e1 e2 with h1 | ⟨op1, b1, h1, h2, h3, h4⟩
      · exact .inl h1
      refine .inr ?_
      by_cases hj : j = k
      · subst hj
        rw [hb] at h1; cases h1
        refine ⟨op, true, upd_same _ _ _, h2, ?_, h4⟩
        rw [← h3, waitingMsgs_of hb h2]
        exact waitingMsgs_of (w := { w1 with b := w1.b.runs [.ready op.waitsOn os], blk := upd w1.blk j (some (op, true)) }) (upd_same _ _ _) h2
      · have e3 : upd w1.blk k (some (op, true)) j = some (op1, b1) := by rw [upd_other _ _ hj]; exact h1
        refine ⟨op1, b1, e3, h2, ?_, h4⟩
        rw [← h3, waitingMsgs_of h1 h2]
        exact waitingMsgs_of (w := { w1 with b := w1.b.runs [.ready op.waitsOn os], blk := upd w1.blk k (some (op, true)) }) e3 h2
    · intro j hj
      exact h.back j ((hwait j).1 hj)
    · rw [delivered_ev]
      show delivered (evs.map Prod.snd) ++ [] ++ _ = _
      rw [List.append_nil]
      exact h.msgs
  · have hby : x.by = k := by
      rcases hx with ⟨op0, env, os, rfl, _⟩ | ⟨os, rfl, _⟩
      · rfl
      · exact ht.own
    have hblo : ∀ j, j ≠ k → w2.blk j = w1.blk j := fun j hj => by rw [ht.blk, upd_other _ _ hj]
    have hblk : w2.blk k = if o = .blocked then some (op, false) else none := by rw [ht.blk, upd_same]
    have hwo : ∀ j, j ≠ k → (w2.writerWaits j ↔ w1.writerWaits j) := by
      intro j hj; unfold WSys.writerWaits; rw [hblo j hj]
    have hmo : ∀ j, j ≠ k → w2.waitingMsgs j = w1.waitingMsgs j := by
      intro j hj
      unfold WSys.waitingMsgs
      rw [hblo j hj]
      cases e : w1.blk j with
      | none => rfl
      | some y =>
        obtain ⟨op', b⟩ := y
        dsimp only
        obtain ⟨e1, _⟩ := C55_waits_on_own_handle hre e
        have h2 : w2.sys.cached j = w1.sys.cached j := by unfold Sys.cached; rw [ht.other j hj]
        subst e1
        have : w2.sys.wants op' = w1.sys.wants op' := by cases op' <;> first | rfl | exact h2
        rw [this]
    -- a writer waited before
    have hwas : op.writes = true → ∃ op0 env os, x = .resume k env os ∧ w1.blk k = some (op0, true) ∧ op = op0.withEnv env ∧ op0.writes = true := by
      intro hw
      rcases hx with ⟨op0, env, os, rfl, e1, rfl, _⟩ | ⟨os, rfl, _, _, e, _⟩
      · exact ⟨op0, env, os, rfl, e1, rfl, by rw [withEnv_writes] at hw; exact hw⟩
      · rw [e] at hw; cases hw
    have hnot : op.writes = false → ¬ w1.writerWaits k := by
      rintro hw ⟨op', b', e1, e2⟩
      rcases hx with ⟨op0, env, os, rfl, e3, rfl, _⟩ | ⟨os, rfl, e3, _⟩
      · rw [e3] at e1; cases e1
        rw [withEnv_writes, e2] at hw; cases hw
      · rw [e3] at e1; cases e1
    have hrdr : ∀ r hd, w.sys.hs r = .live hd → hd.flags.has SHR_RDONLY = true → ∃ hd', w2.sys.hs r = .live hd' ∧ hd'.flags = hd.flags := by
      intro r hd0 e1 e2
      obtain ⟨hd1, g1, g2⟩ := h.rdr r hd0 e1 e2
      by_cases hr : r = k
      · subst hr
        cases hw : op.writes with
        | false =>
          obtain ⟨hd2, g3, g4⟩ := ht.keep hd1 g1 hw
          exact ⟨hd2, g3, g4.trans g2⟩
        | true =>
          exfalso
          obtain ⟨op0, env, os, rfl, c1, rfl, c2⟩ := hwas hw
          obtain ⟨sp, hrep⟩ := hre.state
          obtain ⟨_, _, sh, c3, c4⟩ := hrep.inv.blk _ _ _ c1
          obtain ⟨sh', d1, d2⟩ := hrep.inv.rel.live g1
          rw [c3] at d1; cases d1
          rcases c4 with ⟨⟨_, _, _, _, rfl⟩, _⟩ | ⟨_, c5, _⟩
          · cases c2
          · have := d2.mode
            rw [c5, ← d2.flags, g2, e2] at this
            cases this
      · exact ⟨hd1, by rw [ht.other r hr]; exact g1, g2⟩
    by_cases hret : op.writes = true ∧ o ≠ .blocked
    · -- a writer returns
      obtain ⟨hw, hnb⟩ := hret
      obtain ⟨op0, env, os, rfl, e1, rfl, e2⟩ := hwas hw
      rw [if_neg hnb] at hblk
      have hor : op0.writes = true ∨ ∃ k buf niov env, op0 = .readv k buf niov env := .inl e2
      have hout := ht.ret hw hnb (Succeed.mono (fun _ _ => rfl) hs.ok) (by rw [envOf_withEnv env hor]; exact hsync _ _ _ rfl)
      obtain ⟨op', b', c1, c2⟩ := h.back k ⟨op0, true, e1, e2⟩
      have hnin : k ∉ order := fun hin => (h.done k hin).1 ⟨op0, true, e1, e2⟩
      rcases h.left k op' b' c1 c2 with hin | ⟨op1, b1, d1, d2, d3, d4⟩
      · exact absurd hin hnin
      rw [e1] at d1; cases d1
      have hms : w1.sys.wants (op0.withEnv env) = w.waitingMsgs k := by rw [wants_withEnv, ← d3, waitingMsgs_of e1 e2]
      have hno : ¬ w2.writerWaits k := by rintro ⟨_, _, e, _⟩; rw [hblk] at e; cases e
      refine ⟨order ++ [k], ?_, ?_, ?_, ?_, ?_, hrdr⟩
      · rw [List.nodup_append]
        refine ⟨h.nodup, by simp, ?_⟩
        intro y hy z hz e
        simp only [List.mem_singleton] at hz
        subst hz; subst e
        exact hnin hy
      · intro j hj
        by_cases hjk : j = k
        · subst hjk
          refine ⟨hno, op', b', o, c1, c2, by simp [hby], d4 _ _ ?_⟩
          rw [hms] at hout
          rw [hout]
          cases op0 <;> rfl
        · simp only [List.mem_append, List.mem_singleton, hjk, or_false] at hj
          obtain ⟨h1, op', b', o', h2, h3, h4, h5⟩ := h.done j hj
          exact ⟨fun e => h1 ((hwo j hjk).1 e), op', b', o', h2, h3, by simp [h4], h5⟩
      · intro j op2 b2 f1 f2
        by_cases hjk : j = k
        · subst hjk; exact .inl (by simp)
        · rcases h.left j op2 b2 f1 f2 with h1 | ⟨op1, b1, h1, h2, h3, h4⟩
          · exact .inl (by simp [h1])
          · exact .inr ⟨op1, b1, by rw [hblo j hjk]; exact h1, h2, by rw [hmo j hjk]; exact h3, h4⟩
      · intro j hj
        by_cases hjk : j = k
        · subst hjk; exact absurd hj hno
        · exact h.back j ((hwo j hjk).1 hj)
      · rw [delivered_ev, ht.quiet hw, List.append_nil, ht.wr hw hnb, hms, ← List.append_assoc, h.msgs]
        simp [List.flatMap_append]
    · -- nothing changes for the writers
      have hww : ∀ j, w2.writerWaits j ↔ w1.writerWaits j := by
        intro j
        by_cases hjk : j = k
        · subst hjk
          cases hw : op.writes with
          | true =>
            have hbl : o = .blocked := by
              by_cases e : o = .blocked
              · exact e
              · exact absurd ⟨hw, e⟩ hret
            obtain ⟨op0, env, os, rfl, e1, rfl, e2⟩ := hwas hw
            rw [if_pos hbl] at hblk
            exact ⟨fun _ => ⟨_, _, e1, e2⟩, fun _ => ⟨_, _, hblk, hw⟩⟩
          | false =>
            refine ⟨?_, fun e => absurd e (hnot hw)⟩
            rintro ⟨op', b', e, e2⟩
            rw [hblk] at e
            split at e
            · cases e; rw [hw] at e2; cases e2
            · cases e
        · exact hwo j hjk
      refine ⟨order, h.nodup, ?_, ?_, fun j hj => h.back j ((hww j).1 hj), ?_, hrdr⟩
      · intro j hj
        obtain ⟨h1, op', b', o', h2, h3, h4, h5⟩ := h.done j hj
        exact ⟨fun e => h1 ((hww j).1 e), op', b', o', h2, h3, by simp [h4], h5⟩
      · intro j op2 b2 f1 f2
        rcases h.left j op2 b2 f1 f2 with h1 | ⟨op1, b1, h1, h2, h3, h4⟩
        · exact .inl h1
        right
        by_cases hjk : j = k
        · subst hjk
          cases hw : op.writes with
          | true =>
            have hbl : o = .blocked := by
              by_cases e : o = .blocked
              · exact e
              · exact absurd ⟨hw, e⟩ hret
            obtain ⟨op0, env, os, rfl, e1, rfl, e2⟩ := hwas hw
            rw [if_pos hbl] at hblk
            rw [e1] at h1; cases h1
            refine ⟨_, _, hblk, hw, ?_, fun ms o hh => h4 ms o ((succeeds_withEnv _ env).1 hh)⟩
            rw [waitingMsgs_of hblk hw, (ht.calm hbl).2.2, wants_withEnv, ← h3, waitingMsgs_of e1 e2]
          | false => exact absurd ⟨_, _, h1, h2⟩ (hnot hw)
        · exact ⟨op1, b1, by rw [hblo j hjk]; exact h1, h2, by rw [hmo j hjk]; exact h3, h4⟩
      · rw [delivered_ev]
        cases hw : op.writes with
        | true =>
          have hbl : o = .blocked := by
            by_cases e : o = .blocked
            · exact e
            · exact absurd ⟨hw, e⟩ hret
          rw [ht.quiet hw, List.append_nil, (ht.calm hbl).2.1]
          exact h.msgs
        | false =>
          rw [List.append_assoc, ht.rd hw]
          exact h.msgs

theorem ERun.inv {a : InitArgs} {pid : Nat → Nat} {hist hist' : List Op} {w w' : WSys} {evs : List (Nat × Out)} (h : ERun a pid hist w evs hist' w')
    {S T : BOp → Bool} (h0 : Announced a pid 0 S hist w) (h1 : Announced a pid 1 T hist w) (hf : a.flags.has SHR_FARM = false) :
    Announced a pid 0 S hist' w' ∧ Announced a pid 1 T hist' w' ∧ ∃ order, LInv w w' evs order := by
  induction h with
  | refl => exact ⟨h0, h1, [], .refl _⟩
  | step _ hs hsync ih =>
    obtain ⟨i0, i1, order, hl⟩ := ih h0 h1
    refine ⟨.keeps i0 hs.step hs.clean fun _ => Succeed.mono (fun _ _ => rfl) hs.ok, .keeps i1 hs.step hs.clean fun _ => Succeed.mono (fun _ _ => rfl) hs.ok, ?_⟩
    refine hl.step i0.clean.any ?_ hs hsync
    obtain ⟨sp, hrep⟩ := i0.clean.any.state
    rw [hrep.inv.rel.ring.gf, hrep.inv.gf, gflags_farm]
    exact hf

/-- **C83**, third part. Every eager run that has come to rest has delivered, in order and exactly once, what was unread at its start followed by the
messages of each writer that waited at its start; every call of these writers has returned success, and none waits any more. -/
theorem C83_all_delivered {a : InitArgs} {pid : Nat → Nat} {S : BOp → Bool} {hist hist' : List Op} {w w' : WSys} {evs : List (Nat × Out)}
    (h0 : Announced a pid 0 S hist w) (h1 : Announced a pid 1 (BOp.wakes 1) hist w) (hf : a.flags.has SHR_FARM = false)
    (hrun : ERun a pid hist w evs hist' w') (hrest : AtRest a pid hist' w') {r : Nat} {hd : Handle}
    (hr : w.sys.hs r = .live hd) (hro : hd.flags.has SHR_RDONLY = true) (hS : ∀ x, BOp.wakes 0 x = true → S x = true)
    (hSr : hd.flags.has SHR_NONBLOCK = true → ∀ x, BOp.forces (2 * r) x = true → S x = true) :
    w'.sys.ring.unreadMsgs = [] ∧ (∀ k, ¬ w'.writerWaits k) ∧
    ∃ order : List Nat, order.Nodup ∧ (∀ k, k ∈ order ↔ w.writerWaits k) ∧
      delivered (evs.map Prod.snd) = w.sys.ring.unreadMsgs ++ order.flatMap w.waitingMsgs ∧
      ∀ k op b, w.blk k = some (op, b) → op.writes = true → ∃ o, (k, o) ∈ evs ∧ Succeeds op (w.waitingMsgs k) o := by
  obtain ⟨i0, i1, order, hl⟩ := hrun.inv h0 h1 hf
  obtain ⟨hd', g1, g2⟩ := hl.rdr r hd hr hro
  obtain ⟨e1, e2⟩ := C83_rest_is_empty i0 i1 hf hrest g1 (by rw [g2]; exact hro) hS (by rw [g2]; exact hSr)
  have hall : ∀ k op b, w.blk k = some (op, b) → op.writes = true → k ∈ order := by
    intro k op b hb hw
    rcases hl.left k op b hb hw with h | ⟨op1, b1, h1, h2, _⟩
    · exact h
    · exact absurd ⟨op1, b1, h1, h2⟩ (e2 k)
  refine ⟨e1, e2, order, hl.nodup, fun k => ⟨fun hk => ?_, ?_⟩, ?_, ?_⟩
  · obtain ⟨_, op, b, o, h2, h3, _⟩ := hl.done k hk
    exact ⟨op, b, h2, h3⟩
  · rintro ⟨op, b, hb, hw⟩
    exact hall k op b hb hw
  · have := hl.msgs
    rw [e1, List.append_nil] at this
    exact this
  · intro k op b hb hw
    obtain ⟨_, op', b', o, h2, h3, h4, h5⟩ := hl.done k (hall k op b hb hw)
    rw [hb] at h2; cases h2
    exact ⟨o, h4, h5⟩

/-- **C83**, fourth part. From every state, such a run to rest exists: whatever waits can always go on. -/
theorem C83_rest_is_reached {a : InitArgs} {pid : Nat → Nat} {hist : List Op} {w : WSys} (h : CReach a pid hist w) (hf : a.flags.has SHR_FARM = false) :
    ∃ evs hist' w', ERun a pid hist w evs hist' w' ∧ AtRest a pid hist' w' := by
  obtain ⟨N, hN⟩ := h.any.bounded
  have key : ∀ (m : Nat × Nat × Nat × Nat) (evs : List (Nat × Out)) (hist1 : List Op) (w1 : WSys), w1.mu N = m → ERun a pid hist w evs hist1 w1 →
      CReach a pid hist1 w1 → w1.Below N → ∃ evs hist' w', ERun a pid hist w evs hist' w' ∧ AtRest a pid hist' w' := by
    intro m
    induction m using lex4_wf.induction with
    | _ m ih =>
      intro evs hist1 w1 hm hrun hre hb
      by_cases hrest : AtRest a pid hist1 w1
      · exact ⟨_, _, _, hrun, hrest⟩
      have hex : ∃ x w' o ops, EStep a pid (fun _ => true) hist1 w1 x w' o ops ∧ ∀ k env os, x = .resume k env os → env.syncOk = true :=
        Classical.not_not.1 hrest
      obtain ⟨x, w2, o, ops, hs, hsync⟩ := hex
      have hgf : w1.sys.ring.gflags.has SHR_FARM = false := by
        obtain ⟨sp, hrep⟩ := hre.any.state
        rw [hrep.inv.rel.ring.gf, hrep.inv.gf, gflags_farm]
        exact hf
      obtain ⟨d1, d2, _⟩ := eager_decreases (S := fun _ => true) (fun _ _ _ => rfl) hre hgf hs hb
      exact ih _ (hm ▸ d1) _ _ w2 rfl (.step hrun hs hsync) (.step hre hs.step hs.clean) d2
  exact key _ _ _ _ rfl (.refl _ _) h hN

/-! ## The hypotheses can be met -/

/-- Reader 1 waits (although the ring is full: it has not yet run) and writer 0 waits for space.  There is a run to rest, and every such run delivers the three messages, in
order, and returns 1 to the writer. -/
example : ∃ hist w, Announced demoA dpid 0 (BOp.wakes 0) hist w ∧ Announced demoA dpid 1 (BOp.wakes 1) hist w ∧ w.writerWaits 0 ∧
    w.sys.ring.unreadMsgs = [[1, 2, 3, 4, 5], [6, 7, 8, 9, 10]] ∧
    (∃ evs hist' w', ERun demoA dpid hist w evs hist' w' ∧ AtRest demoA dpid hist' w') ∧
    ∀ evs hist' w', ERun demoA dpid hist w evs hist' w' → AtRest demoA dpid hist' w' →
      (∃ order : List Nat, delivered (evs.map Prod.snd) = [[1, 2, 3, 4, 5], [6, 7, 8, 9, 10]] ++ order.flatMap w.waitingMsgs) ∧ (0, .wrote 1) ∈ evs := by
  obtain ⟨hist, w, h1, h2⟩ := plays_reach (st := true) (P := fun w => (w.sys.hs 1).isLive && decide ((w.sys.handle 1).flags.has SHR_RDONLY = true) &&
      decide ((w.sys.handle 1).flags.has SHR_NONBLOCK = false) && decide (w.blk 0 = some (wr 0 [[11]], false)) &&
      decide (w.sys.ring.unreadMsgs = [[1, 2, 3, 4, 5], [6, 7, 8, 9, 10]]))
    demoA_wf (dsends scrBoth (by simp [scrBoth, scrRead])) (show plays true demoA dpid 4 scrBoth _ = true by decide +kernel)
  simp only [Bool.and_eq_true, decide_eq_true_eq] at h2
  obtain ⟨⟨⟨⟨g1, g2⟩, g3⟩, g4⟩, g5⟩ := h2
  have hf : demoA.flags.has SHR_FARM = false := by decide
  refine ⟨hist, w, h1.ann rfl _ _ wakes_isSignal, h1.ann rfl _ _ wakes_isSignal, ⟨_, _, g4, rfl⟩, g5, C83_rest_is_reached h1.clean hf, ?_⟩
  intro evs hist' w' hrun hrest
  obtain ⟨_, _, order, _, _, e1, e2⟩ := C83_all_delivered (S := BOp.wakes 0) (h1.ann rfl _ _ wakes_isSignal) (h1.ann rfl _ _ wakes_isSignal) hf hrun hrest
    (live_handle g1) g2 (fun _ h => h) (fun h => by rw [g3] at h; cases h)
  obtain ⟨o, e3, e4⟩ := e2 0 _ _ g4 rfl
  refine ⟨⟨order, by rw [e1, g5]⟩, ?_⟩
  have : w.waitingMsgs 0 = [[11]] := waitingMsgs_of g4 rfl
  rw [this] at e4
  have e4 : o = .wrote 1 := e4
  rw [← e4]; exact e3

/-- A non-blocking reader: `S` contains its own `bw_force` calls. -/
example : ∃ hist w hd, Announced demoA dpid 0 (fun x => x.wakes 0 || x.forces (2 * 1)) hist w ∧ Announced demoA dpid 1 (BOp.wakes 1) hist w ∧ w.sys.hs 1 = .live hd ∧
    hd.flags.has SHR_RDONLY = true ∧ hd.flags.has SHR_NONBLOCK = true ∧ w.sys.ring.unreadMsgs ≠ [] := by
  obtain ⟨hist, w, h1, h2⟩ := plays_reach (st := true) (P := fun w => (w.sys.hs 1).isLive && decide ((w.sys.handle 1).flags.has SHR_RDONLY = true) &&
      decide ((w.sys.handle 1).flags.has SHR_NONBLOCK = true) && decide (w.sys.ring.unreadMsgs ≠ []))
    demoA_wf (dsends scrSel (by simp [scrSel])) (show plays true demoA dpid 4 scrSel _ = true by decide +kernel)
  simp only [Bool.and_eq_true, decide_eq_true_eq] at h2
  refine ⟨hist, w, _, h1.ann rfl _ _ ?_, h1.ann rfl _ _ wakes_isSignal, live_handle h2.1.1.1, h2.1.1.2, h2.1.2, h2.2⟩
  intro y hy
  rw [Bool.or_eq_true] at hy
  rcases hy with h | h
  · exact wakes_isSignal y h
  · exact forces_isSignal y h

end Shr
