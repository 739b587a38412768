import Verif.Proof.BwKill
import Verif.Props.Bw
/-! # C84: processes killed inside calls of the block/wake library -/
namespace Shr

/-! ## The runs with all their intermediate states are the calls of `Model/Bw.lean` -/

theorem points_caller {s : BSys} {op : BOp} {gs : List Nat} {hi pid : Nat} {pts : List Shared} (e : s.points gs op = some (hi, pid, pts)) :
    pid = s.caller op := by
  cases op <;> unfold BSys.points at e <;> dsimp only at e <;> unfold BSys.caller <;> dsimp only
  · split at e
    · cases e
    · cases e; rfl
  · split at e
    · cases e
    · cases e; rfl
  all_goals
    first
    | cases e
    | (rename_i i _ _; cases ei : s.ts i with
        | none => rw [ei] at e; cases e
        | some t => cases t <;> (rw [ei] at e; cases e) <;> rfl)
    | (rename_i i _; cases ei : s.ts i with
        | none => rw [ei] at e; cases e
        | some t => cases t <;> (rw [ei] at e; cases e) <;> rfl)
    | (rename_i i; cases ei : s.ts i with
        | none => rw [ei] at e; cases e
        | some t => cases t <;> (rw [ei] at e; cases e) <;> rfl)

/-- **C84.** A call that is not interrupted ends in the state of the atomic step; its process is the caller. -/
theorem C84_points_end_in_step {s : BSys} (h : s.KReach) {op : BOp} (hc : s.Clean op) {gs : List Nat} {hi pid : Nat} {pts : List Shared}
    (e : s.points gs op = some (hi, pid, pts)) : pts.getLast? = some ((s.step op).1.kern, (s.step op).1.hd hi) ∧ pid = s.caller op :=
  ⟨(h.inv.points hc e).2, points_caller e⟩

/-! ## What a death inside a call does to others -/

theorem exit_ts_other {s : BSys} {p i hi pid : Nat} {w : WaitT} (e : s.ts i = some (.wait hi pid w)) (hp : pid ≠ p) :
    (s.exit p).ts i = some (.wait hi pid w) := by
  unfold BSys.exit; dsimp only; rw [e]; dsimp only; rw [if_neg hp]

/-- A death inside a call keeps what other waiters have. -/
theorem BInv.killed_keeps {s s' : BSys} (h : BInv s) {op : BOp} (hc : s.Clean op) (hk : s.Killed op s') {i hi pid : Nat} {w : WaitT}
    (ew : s.ts i = some (.wait hi pid w)) (hne : pid ≠ s.caller op) : s'.ts i = some (.wait hi pid w) ∧ s.pending i ≤ s'.pending i := by
  obtain ⟨gs, a, p, pts, x, e, hx, rfl⟩ := hk
  rw [← points_caller e] at hne
  have ht := (h.points hc e).1 x hx
  have ew' : (BSys.exit ⟨x.1, upd s.hd a x.2, s.ts⟩ p).ts i = some (.wait hi pid w) := exit_ts_other (s := ⟨x.1, upd s.hd a x.2, s.ts⟩) ew hne
  refine ⟨ew', ?_⟩
  unfold BSys.pending
  rw [ew, ew']
  dsimp only
  obtain ⟨y, hy, f1, f2, f3⟩ := (h.reg i hi pid w ew).sock
  rw [← f1]
  refine Nat.le_trans (ht.pend y hy (by rw [f3]; exact hne)) (Nat.le_of_eq ?_)
  -- the exit itself touches only sockets of `p`
  obtain ⟨z, hz, g1, g2, g3⟩ := mem_of_ids ht.ids hy (by rw [f3]; exact hne)
  have hz' : z ∈ (x.1.exit p).socks := List.mem_filter.2 ⟨hz, by rw [g3, f3]; simpa using hne⟩
  show x.1.pending y.sid = (x.1.exit p).pending y.sid
  have kx := ht.kinv h.k
  rw [← g1, pending_of_mem kx hz]
  exact (pending_of_mem (k := x.1.exit p) (kx.filter _) hz').symm

/-- **C84.** A process killed at any moment inside any call takes nothing from a waiter of another process: the waiter stays
open, stays registered in the same slot, and every datagram it had is still there. -/
theorem C84_others_keep_everything {s s' : BSys} (h : s.KReach) {op : BOp} (hc : s.Clean op) (hk : s.Killed op s') {i hi pid : Nat}
    (hw : s.Waiting i hi pid) (hne : pid ≠ s.caller op) :
    s'.Waiting i hi pid ∧ s'.Registered i hi pid ∧ s'.slotOf i = s.slotOf i ∧ s.pending i ≤ s'.pending i := by
  obtain ⟨w, ew⟩ := hw
  obtain ⟨ew', hp⟩ := h.inv.killed_keeps hc hk ew hne
  refine ⟨⟨w, ew'⟩, (h.inv.killed hc hk).registered ⟨w, ew'⟩, ?_, hp⟩
  rw [slotOf_eq ew, slotOf_eq ew']

/-- **C84.** The wakers of other processes stay open with all their connections. -/
theorem C84_other_wakers_stay {s s' : BSys} (h : s.KReach) {op : BOp} (hc : s.Clean op) (hk : s.Killed op s') {j hi pid : Nat} {w : WakeT}
    (hw : s.ts j = some (.wake hi pid w)) (hne : pid ≠ s.caller op) : s'.ts j = some (.wake hi pid w) := by
  obtain ⟨gs, a, p, pts, x, e, hx, rfl⟩ := hk
  rw [← (C84_points_end_in_step h hc e).2] at hne
  unfold BSys.exit; dsimp only; rw [hw]; dsimp only; rw [if_neg hne]

/-- **C84.** Nothing of the killed process is left but slots that do not belong to anybody: none of its `bw_t`s, none of its sockets. -/
theorem C84_dead_is_gone {s s' : BSys} (h : s.KReach) {op : BOp} (hc : s.Clean op) (hk : s.Killed op s') :
    (∀ i hi, ¬ s'.Waiting i hi (s.caller op)) ∧ ∀ name, s'.kern.held (s.caller op) name = false := by
  obtain ⟨gs, a, p, pts, x, e, hx, rfl⟩ := hk
  rw [← (C84_points_end_in_step h hc e).2]
  constructor
  · rintro i hi ⟨w, ew⟩
    exact (exit_ts_wait ew).2 rfl
  · intro name
    cases e2 : (BSys.exit ⟨x.1, upd s.hd a x.2, s.ts⟩ p).kern.held p name with
    | false => rfl
    | true =>
      obtain ⟨y, hy, -, f⟩ := held_iff.1 e2
      have := (List.mem_filter.1 hy).2
      simp [f] at this

/-! ## The guarantees of C38 – C40 hold whatever calls were cut short -/

/-- **C84.** Every open waiter is registered. -/
theorem C84_waiters_are_registered {s : BSys} (h : s.KReach) {i hi pid : Nat} (hw : s.Waiting i hi pid) : s.Registered i hi pid :=
  h.inv.registered hw

/-- **C84.** No two open waiters of a handle share a slot, and there are at most 64. -/
theorem C84_slots_exclusive {s : BSys} (h : s.KReach) {hi : Nat} :
    (∀ i j pid pid', s.Waiting i hi pid → s.Waiting j hi pid' → i ≠ j → s.slotOf i ≠ s.slotOf j) ∧
    ∀ l : List Nat, l.Nodup → (∀ i ∈ l, ∃ pid, s.Waiting i hi pid) → l.length ≤ 64 := by
  refine ⟨?_, fun l hl hw => h.inv.bounded hl hw⟩
  rintro i j pid pid' ⟨w, e⟩ ⟨v, f⟩ hne
  rw [slotOf_eq e, slotOf_eq f]
  exact fun h2 => hne (h.inv.slots e f h2)

/-- **C84.** A `bw_wake` that returns success leaves a datagram pending at every open waiter of the handle. -/
theorem C84_wake_reaches_all {s : BSys} (h : s.KReach) {j hi pid : Nat} {w : WakeT} {os : Os} (hj : s.ts j = some (.wake hi pid w))
    (hc : s.Clean (.wake j os)) (hok : (s.step (.wake j os)).2 = true) {i pid' : Nat} (hw : s.Waiting i hi pid') :
    1 ≤ (s.step (.wake j os)).1.pending i := h.inv.wake_reaches_all hj hc hok hw

/-- Sockets can be made and connected, and deaths can be found out. -/
def Os.Answers (os : Os) : Prop :=
  os.allocOk = true ∧ ∀ n, os.sockOk n = true ∧ os.connOk n = true ∧ os.pidKnown n = true ∧ os.pidKnown' n = true

theorem open_socket_answers {k : Kern} {os : Os} (ho : os.Answers) (h : BwH) (w : WakeT) (n : Nat) :
    (open_socket k os h w n).2.2 = true := by
  obtain ⟨h1, h2, h3, h4⟩ := ho.2 n
  unfold open_socket
  rw [if_neg (by simp [h1])]
  unfold connect
  rw [if_pos h2]
  cases e : k.lookup (w.name n) with
  | some sid => rfl
  | none =>
    dsimp only
    have hh : k.held (h.wr n).pid (w.name n) = false := by
      cases e2 : k.held (h.wr n).pid (w.name n) with
      | false => rfl
      | true =>
        obtain ⟨x, hx, e3, -⟩ := held_iff.1 e2
        exact absurd e3 (lookup_none e x hx)
    rw [if_pos]
    unfold has_pid_socket
    rw [hh, h4]; rfl

theorem bw_sync_answers {k : Kern} {os : Os} (ho : os.Answers) (h : BwH) (w : WakeT) : (bw_sync k os h w).2.2 = true := by
  have slot : ∀ (h : BwH) (w : WakeT) (n : Nat), (syncSlot k os h w n).2.2 = true := by
    intro h w n
    unfold syncSlot
    generalize (if w.fd n ≠ none ∧ ((h.wr n).pid = 0 ∨ (h.wr n).name ≠ w.name n) then { w with fd := upd w.fd n none } else w) = w1
    dsimp only
    split
    · exact open_socket_answers ho _ _ _
    · rfl
  have loop : ∀ (l : List Nat) (h : BwH) (w : WakeT), (syncLoop k os l h w).2.2 = true := by
    intro l
    induction l with
    | nil => intro h w; rfl
    | cons n ns ih =>
      intro h w
      unfold syncLoop
      have := slot h w n
      generalize syncSlot k os h w n = y at *
      obtain ⟨h', w', b⟩ := y
      dsimp only at this
      subst this
      exact ih h' w'
  unfold bw_sync
  split
  · rfl
  · have := loop (List.range BW_WAITMAX) h w
    generalize syncLoop k os (List.range BW_WAITMAX) h w = y at *
    obtain ⟨h', w', b⟩ := y
    dsimp only at this
    subst this
    rfl

/-- **C84.** Whatever dead processes left in the handle, wakers work: if the system answers, `bw_wake` and `bw_open(BW_WAKE)` succeed,
and so does `bw_open(BW_WAIT)` unless every slot belongs to a live process. -/
theorem C84_nobody_is_locked_out {s : BSys} {os : Os} (ho : os.Answers) :
    (∀ j hi pid w, s.ts j = some (.wake hi pid w) → (s.step (.wake j os)).2 = true) ∧
    (∀ i hi pid, s.ts i = none → pid ≠ 0 → (s.step (.openWake i hi pid os)).2 = true) ∧
    (∀ i hi pid, s.ts i = none → pid ≠ 0 → os.bindOk = true → os.selfOk = true → os.epollOk = true → s.kern.lookup os.bindName = none →
      (∃ n < 64, s.kern.held ((s.hd hi).wr n).pid ((s.hd hi).wr n).name = false) → (s.step (.openWait i hi pid os)).2 = true) := by
  refine ⟨?_, ?_, ?_⟩
  · intro j hi pid w e
    unfold BSys.step BSys.wake; dsimp only; rw [e]; dsimp only
    have := bw_sync_answers ho (k := s.kern) (s.hd hi) w
    unfold bw_wake
    generalize bw_sync s.kern os (s.hd hi) w = y at *
    obtain ⟨h', w', b⟩ := y
    dsimp only at this
    subst this
    rfl
  · intro i hi pid e hp
    unfold BSys.step; dsimp only
    rw [if_neg (by rw [e]; simp [hp])]
    unfold BSys.openWake bw_open_wake
    rw [if_neg (by simp [ho.1])]
    have := bw_sync_answers ho (k := s.kern) (prune_handle s.kern os (s.hd hi)) {}
    generalize bw_sync s.kern os (prune_handle s.kern os (s.hd hi)) {} = y at *
    obtain ⟨h', w', b⟩ := y
    dsimp only at this
    subst this
    rfl
  · intro i hi pid e hp h2 h3 h4 h5 h6
    rw [C38_recycled e hp ho.1 h2 h3 h4 h5]
    obtain ⟨n, hn, h7⟩ := h6
    exact ⟨n, hn, .inr ⟨(ho.2 n).2.2.1, h7⟩⟩

/-! ## Non-vacuity -/

/-- The state left if the caller is killed at the `n`-th point of its call. -/
def BSys.killAt (s : BSys) (gs : List Nat) (op : BOp) (n : Nat) : Option BSys :=
  match s.points gs op with
  | some (hi, pid, pts) => (pts[n]?).map fun x => BSys.exit ⟨x.1, upd s.hd hi x.2, s.ts⟩ pid
  | none => none

theorem killAt_killed {s s' : BSys} {gs : List Nat} {op : BOp} {n : Nat} (h : s.killAt gs op n = some s') : s.Killed op s' := by
  unfold BSys.killAt at h
  split at h
  · rename_i hi pid pts e
    cases ex : pts[n]? with
    | none => rw [ex] at h; cases h
    | some x =>
      rw [ex] at h
      simp only [Option.map_some, Option.some.injEq] at h
      exact ⟨gs, hi, pid, pts, x, e, List.mem_of_getElem? ex, h.symm⟩
  · cases h

/-- Waiter 0 (process 10) and waker 2 (process 30) on handle 0. -/
def killBase : BSys := BSys.runs {} [.openWait 0 0 10 (pick 100), .openWake 2 0 30 {}]

theorem killBase_reach : killBase.KReach := by
  unfold killBase BSys.runs BSys.runs BSys.runs
  refine .step _ (.step _ .init ?_) trivial
  intro j hi pid w n _ e
  cases e

theorem waiting_of {s : BSys} {i hi pid : Nat}
    (h : (match s.ts i with | some (.wait a p _) => a == hi && p == pid | _ => false) = true) : s.Waiting i hi pid := by
  split at h
  · rename_i a p w e
    simp only [Bool.and_eq_true, beq_iff_eq] at h
    exact ⟨w, by rw [e, h.1, h.2]⟩
  · cases h

/-- What is observed in the example below. -/
def killObs (s t : BSys) : List Nat :=
  [((s.hd 0).wr 1).pid, (s.hd 0).seqno.toNat, (s.step (.wake 2 {})).2.toNat, (s.step (.wake 2 {})).1.pending 0,
   t.slotOf 3, (t.step (.wake 2 {})).2.toNat, (t.step (.wake 2 {})).1.pending 0, (t.step (.wake 2 {})).1.pending 3]

/-- Process 20 registers a waiter and is killed between `pid = getpid()` and `seqno++`; its name had been stored byte by byte
(two intermediate values).  The waker does not notice the dead slot, but its next wake succeeds and reaches waiter 0; a new waiter of process 40 gets the
dead slot, and one wake reaches both. -/
example : ∃ s', killBase.Killed (.openWait 1 0 20 (pick 101)) s' ∧ s'.KReach ∧ s'.Waiting 0 0 10 ∧
    killObs s' (s'.step (.openWait 3 0 40 (pick 102))).1 = [20, (killBase.hd 0).seqno.toNat, 1, 1, 1, 1, 1, 1] := by
  cases e : killBase.killAt [7, 8] (.openWait 1 0 20 (pick 101)) 5 with
  | none => exact absurd e (by
      intro h
      have := congrArg Option.isSome h
      revert this; decide +kernel)
  | some s' =>
    have hk := killAt_killed e
    have key : (killBase.killAt [7, 8] (.openWait 1 0 20 (pick 101)) 5).map
        (fun s' => killObs s' (s'.step (.openWait 3 0 40 (pick 102))).1) = some [20, (killBase.hd 0).seqno.toNat, 1, 1, 1, 1, 1, 1] := by
      decide +kernel
    rw [e] at key
    simp only [Option.map_some, Option.some.injEq] at key
    have hcl : killBase.Clean (.openWait 1 0 20 (pick 101)) := by
      have hb : killBase.Below 3 := by
        unfold killBase BSys.runs BSys.runs BSys.runs
        exact BSys.Below.step (b := 3) (op := .openWake 2 0 30 {}) (BSys.Below.step (b := 3) (s := {}) (op := .openWait 0 0 10 (pick 100))
          (fun j hi pid w e => (by cases e)) (by decide +kernel)) (by decide +kernel)
      exact BSys.clean_of hb (by decide +kernel) (fun i os h => (by cases h))
    exact ⟨s', hk, .kill _ killBase_reach hcl hk,
      (C84_others_keep_everything killBase_reach hcl hk (waiting_of (by decide +kernel)) (by decide)).1, key⟩

/-- What a death inside a call can cost: a waker killed in the middle of `bw_wake` has woken the waiter of slot 0 and not that of slot 1.
(The next successful wake reaches both, `C84_wake_reaches_all`.) -/
theorem C84_counterexample_half_woken :
    let s := (killBase.step (.openWait 1 0 20 (pick 101))).1
    ∃ s', s.Killed (.wake 2 {}) s' ∧ s'.pending 0 = 1 ∧ s'.pending 1 = 0 := by
  intro s
  cases e : s.killAt [] (.wake 2 {}) 1 with
  | none => exact absurd e (by
      intro h
      have := congrArg Option.isSome h
      revert this; decide +kernel)
  | some s' =>
    have key : (s.killAt [] (.wake 2 {}) 1).map (fun s' => (s'.pending 0, s'.pending 1)) = some (1, 0) := by decide +kernel
    rw [e] at key
    simp only [Option.map_some, Option.some.injEq, Prod.mk.injEq] at key
    exact ⟨s', killAt_killed e, key⟩

end Shr
