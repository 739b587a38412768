import Verif.Proof.BwInv
import Mathlib.Data.List.Perm.Subperm
import Mathlib.Data.List.Nodup
/-! # Properties of the block/wake library: C38 – C40 -/
namespace Shr
open BSys

/-! ## Specification -/

/-- `i` is an open waiter of handle `hi`, in process `pid`. -/
def BSys.Waiting (s : BSys) (i hi pid : Nat) : Prop := ∃ w, s.ts i = some (.wait hi pid w)

/-- The slot of a waiter. -/
def BSys.slotOf (s : BSys) (i : Nat) : Nat :=
  match s.ts i with
  | some (.wait _ _ w) => w.slotno
  | _ => BW_WAITMAX

/-- The waiter `i` of handle `hi` can be found by wakers: its slot has its pid, and the name under which
the kernel knows its socket. -/
def BSys.Registered (s : BSys) (i hi pid : Nat) : Prop :=
  ∃ w, s.ts i = some (.wait hi pid w) ∧ w.slotno < BW_WAITMAX ∧ ((s.hd hi).wr w.slotno).pid = pid ∧
    s.kern.lookup ((s.hd hi).wr w.slotno).name = some w.sid

/-- The slot is free, or its owner is dead and this can be found out. -/
def BSys.Reclaimable (s : BSys) (hi : Nat) (os : Os) (n : Nat) : Prop :=
  ((s.hd hi).wr n).pid = 0 ∨
    (os.pidKnown n = true ∧ s.kern.held ((s.hd hi).wr n).pid ((s.hd hi).wr n).name = false)

/-! ## C40 -/

theorem BInv.registered {s : BSys} (h : BInv s) {i hi pid : Nat} (hw : s.Waiting i hi pid) : s.Registered i hi pid := by
  obtain ⟨w, e⟩ := hw
  have r := h.reg i hi pid w e
  obtain ⟨x, hx, e1, e2, e3⟩ := r.sock
  exact ⟨w, e, r.lt, r.own, by rw [← e2, lookup_of_mem h.k hx, e1]⟩

/-- **C40.** In every state reached by clean steps, every open waiter is registered.
Missing: steps that are not clean, for which this is false (`C40_counterexample_name_reuse`,
`C40_counterexample_send_error`). -/
theorem C40_waiters_are_registered_partial {s : BSys} (h : s.Reach) {i hi pid : Nat} (hw : s.Waiting i hi pid) : s.Registered i hi pid :=
  h.inv.registered hw

theorem openWake_ts (s : BSys) (i a pid : Nat) (os : Os) {j : Nat} (h : j ≠ i) : (s.openWake i a pid os).1.ts j = s.ts j := by
  unfold BSys.openWake; split
  · dsimp only; rw [upd_other _ _ h]
  · rfl

theorem openWait_ts (s : BSys) (i a pid : Nat) (os : Os) {j : Nat} (h : j ≠ i) : (s.openWait i a pid os).1.ts j = s.ts j := by
  unfold BSys.openWait; split
  · dsimp only; rw [upd_other _ _ h]
  · rfl

theorem wake_ts (s : BSys) (i : Nat) (os : Os) {j hi pid : Nat} {w : WaitT} (h : s.ts j = some (.wait hi pid w)) :
    (s.wake i os).1.ts j = s.ts j := by
  unfold BSys.wake; split
  · rename_i e
    dsimp only; rw [upd_other]; rintro rfl; rw [h] at e; cases e
  · rfl

/-- A waiter stays open until it is closed or its process exits. -/
theorem step_waiting {s : BSys} {op : BOp} {i hi pid : Nat} {w : WaitT} (e : s.ts i = some (.wait hi pid w)) (h1 : op ≠ .close i)
    (h2 : op ≠ .exit pid) : (s.step op).1.ts i = some (.wait hi pid w) := by
  cases op with
  | openWake j a p os =>
    unfold BSys.step; dsimp only; split
    · exact e
    · rename_i h; rw [openWake_ts, e]; rintro rfl; rw [e] at h; simp at h
  | openWait j a p os =>
    unfold BSys.step; dsimp only; split
    · exact e
    · rename_i h; rw [openWait_ts, e]; rintro rfl; rw [e] at h; simp at h
  | close j =>
    have hne : i ≠ j := fun e => h1 (by rw [e])
    unfold BSys.step BSys.close; dsimp only
    split
    · dsimp only; rw [upd_other _ _ hne, e]
    · dsimp only; rw [upd_other _ _ hne, e]
    · exact e
  | wake j os => unfold BSys.step; dsimp only; rw [wake_ts s j os e, e]
  | force j b os => unfold BSys.step BSys.force; dsimp only; split <;> exact e
  | ready j os => unfold BSys.step BSys.ready; dsimp only; split <;> exact e
  | exit p =>
    have hne : pid ≠ p := fun e => h2 (by rw [e])
    unfold BSys.step BSys.exit; dsimp only; rw [e]; dsimp only; rw [if_neg hne]

/-- **C40.** No call of anybody else (opening, closing, pruning, connecting, waking), and no death of another process,
evicts a waiter, if the step is clean. -/
theorem C40_never_evicted_partial {s : BSys} (h : s.Reach) {op : BOp} (hc : s.Clean op) {i hi pid : Nat} (hw : s.Waiting i hi pid)
    (h1 : op ≠ .close i) (h2 : op ≠ .exit pid) : (s.step op).1.Registered i hi pid ∧ (s.step op).1.slotOf i = s.slotOf i := by
  obtain ⟨w, e⟩ := hw
  have e' := step_waiting e h1 h2
  refine ⟨C40_waiters_are_registered_partial (.step op h hc) ⟨w, e'⟩, ?_⟩
  unfold BSys.slotOf
  rw [e', e]

/-! ## C39 -/

theorem BInv.wake_reaches_all {s : BSys} (hi' : BInv s) {j hi pid : Nat} {w : WakeT} {os : Os} (hj : s.ts j = some (.wake hi pid w))
    (hc : s.Clean (.wake j os)) (hok : (s.step (.wake j os)).2 = true) {i pid' : Nat} (hw : s.Waiting i hi pid') :
    1 ≤ (s.step (.wake j os)).1.pending i := by
  obtain ⟨v, e⟩ := hw
  have r := hi'.reg i hi pid' v e
  have e' := step_waiting (op := .wake j os) e (by simp) (by simp)
  unfold BSys.pending
  rw [e']
  dsimp only
  obtain ⟨x, hx, e1, e2, e3⟩ := r.sock
  unfold BSys.step BSys.wake at hok ⊢
  dsimp only at hok ⊢
  rw [hj] at hok ⊢
  dsimp only at hok ⊢
  obtain ⟨s1, s2, s3, s4, s5⟩ := bw_wake_spec hi'.k hc (hi'.heldP hi) (hi'.wakers j hi pid w hj) _ rfl
  rw [← e1]
  exact s5 hok v.slotno ⟨i, pid', v, e, rfl⟩ x hx e2 (e3.trans r.own.symm)

/-- **C39.** A successful `bw_wake` leaves a datagram pending at every open waiter of the handle, whatever
happened since the waker last looked. -/
theorem C39_wake_reaches_all {s : BSys} (h : s.Reach) {j hi pid : Nat} {w : WakeT} {os : Os} (hj : s.ts j = some (.wake hi pid w))
    (hc : s.Clean (.wake j os)) (hok : (s.step (.wake j os)).2 = true) {i pid' : Nat} (hw : s.Waiting i hi pid') :
    1 ≤ (s.step (.wake j os)).1.pending i :=
  h.inv.wake_reaches_all hj hc hok hw

/-! ## C38 -/

theorem slotOf_eq {s : BSys} {i hi pid : Nat} {w : WaitT} (e : s.ts i = some (.wait hi pid w)) : s.slotOf i = w.slotno := by
  unfold BSys.slotOf; rw [e]

/-- **C38.** No two open waiters of a handle share a slot. -/
theorem C38_slots_exclusive {s : BSys} (h : s.Reach) {i j hi pid pid' : Nat} (hi1 : s.Waiting i hi pid) (hj : s.Waiting j hi pid')
    (hne : i ≠ j) : s.slotOf i ≠ s.slotOf j := by
  obtain ⟨w, e⟩ := hi1
  obtain ⟨v, f⟩ := hj
  rw [slotOf_eq e, slotOf_eq f]
  exact fun h2 => hne (h.inv.slots e f h2)

theorem waiters_slots {s : BSys} (h : BInv s) {hi : Nat} {l : List Nat} (hl : l.Nodup) (hw : ∀ i ∈ l, ∃ pid, s.Waiting i hi pid) :
    (l.map s.slotOf).Nodup ∧ l.map s.slotOf ⊆ List.range BW_WAITMAX := by
  constructor
  · refine List.Nodup.map_on ?_ hl
    intro i hi1 j hj e
    obtain ⟨p, w, e1⟩ := hw i hi1
    obtain ⟨p', w', e2⟩ := hw j hj
    rw [slotOf_eq e1, slotOf_eq e2] at e
    exact h.slots e1 e2 e
  · intro n hn
    obtain ⟨i, hi1, rfl⟩ := List.mem_map.1 hn
    obtain ⟨p, w, e1⟩ := hw i hi1
    rw [slotOf_eq e1]
    exact List.mem_range.2 (h.reg i hi p w e1).lt

theorem BInv.bounded {s : BSys} (h : BInv s) {hi : Nat} {l : List Nat} (hl : l.Nodup) (hw : ∀ i ∈ l, ∃ pid, s.Waiting i hi pid) :
    l.length ≤ 64 := by
  obtain ⟨h1, h2⟩ := waiters_slots h hl hw
  have := (List.subperm_of_subset h1 h2).length_le
  simpa [BW_WAITMAX] using this

/-- **C38.** At most 64 waiters are open on a handle. -/
theorem C38_bounded {s : BSys} (h : s.Reach) {hi : Nat} {l : List Nat} (hl : l.Nodup) (hw : ∀ i ∈ l, ∃ pid, s.Waiting i hi pid) :
    l.length ≤ 64 := h.inv.bounded hl hw

theorem pruneSlot_held {k : Kern} {os : Os} {h : BwH} {n : Nat} (hh : k.held (h.wr n).pid (h.wr n).name = true) : pruneSlot k os h n = h := by
  unfold pruneSlot
  split
  · rfl
  · rw [if_neg]
    intro e; rw [has_pid_zero e] at hh; cases hh

theorem prune_all_held {k : Kern} {os : Os} {h : BwH} : ∀ (ns : List Nat), (∀ n ∈ ns, k.held (h.wr n).pid (h.wr n).name = true) →
    ns.foldl (pruneSlot k os) h = h
  | [], _ => rfl
  | n :: ns, hh => by
    rw [List.foldl_cons, pruneSlot_held (hh n (by simp))]
    exact prune_all_held ns fun m hm => hh m (by simp [hm])

/-- **C38.** With 64 waiters open on a handle, opening another fails and changes nothing at all. -/
theorem C38_65th_fails {s : BSys} (h : s.Reach) {hi : Nat} {l : List Nat} (hl : l.Nodup) (hw : ∀ i ∈ l, ∃ pid, s.Waiting i hi pid)
    (h64 : l.length = 64) (i pid : Nat) (os : Os) : s.step (.openWait i hi pid os) = (s, false) := by
  obtain ⟨h1, h2⟩ := waiters_slots h.inv hl hw
  have hall : ∀ n < BW_WAITMAX, s.kern.held ((s.hd hi).wr n).pid ((s.hd hi).wr n).name = true := by
    intro n hn
    have hp := (List.subperm_of_subset h1 h2).perm_of_length_le (by simp [BW_WAITMAX, h64])
    obtain ⟨j, hj, e⟩ := List.mem_map.1 (hp.mem_iff.2 (List.mem_range.2 hn))
    obtain ⟨p, w, e1⟩ := hw j hj
    rw [slotOf_eq e1] at e
    rw [← e]
    exact (h.inv.reg j hi p w e1).held
  unfold BSys.step
  dsimp only
  split
  · rfl
  unfold BSys.openWait bw_open_wait
  have hs : (⟨s.kern, upd s.hd hi (s.hd hi), s.ts⟩ : BSys) = s := by rw [upd_eq_self]
  split
  · rename_i e
    split at e
    · cases e
    · rw [show prune_handle s.kern os (s.hd hi) = s.hd hi from prune_all_held _ fun n hn => hall n (List.mem_range.1 hn)] at e
      unfold bw_reserve at e
      cases ef : freeSlot (s.hd hi) with
      | none => rw [ef] at e; cases e
      | some n =>
        obtain ⟨f1, f2⟩ := freeSlot_some ef
        have := hall n f1
        rw [f2] at this
        obtain ⟨x, hx, g1, g2⟩ := held_iff.1 this
        exact absurd g2 (h.inv.k.pid x hx)
  · rename_i k' h' e
    split at e
    · cases e; rw [hs]
    · rw [show prune_handle s.kern os (s.hd hi) = s.hd hi from prune_all_held _ fun n hn => hall n (List.mem_range.1 hn)] at e
      unfold bw_reserve at e
      cases ef : freeSlot (s.hd hi) with
      | none => rw [ef] at e; cases e; rw [hs]
      | some n =>
        obtain ⟨f1, f2⟩ := freeSlot_some ef
        have := hall n f1
        rw [f2] at this
        obtain ⟨x, hx, g1, g2⟩ := held_iff.1 this
        exact absurd g2 (h.inv.k.pid x hx)

/-- **C38.** Closing a waiter frees its slot and touches no other. -/
theorem C38_close_frees {s : BSys} {i hi pid : Nat} (hw : s.Waiting i hi pid) :
    (((s.step (.close i)).1.hd hi).wr (s.slotOf i)).pid = 0 ∧
    ∀ hi' n, ¬ (hi' = hi ∧ n = s.slotOf i) → ((s.step (.close i)).1.hd hi').wr n = (s.hd hi').wr n := by
  obtain ⟨w, e⟩ := hw
  rw [slotOf_eq e]
  unfold BSys.step BSys.close
  dsimp only
  rw [e]
  dsimp only [bw_close_wait]
  constructor
  · rw [upd_same, release_pid]
  · intro hi' n hne
    by_cases h1 : hi' = hi
    · subst h1
      rw [upd_same, release_other]
      exact fun h => hne ⟨rfl, h⟩
    · rw [upd_other _ _ h1]

theorem prune_slot_eq {k : Kern} {os : Os} : ∀ (ns : List Nat) (h : BwH) (m : Nat), ns.Nodup →
    (((ns.foldl (pruneSlot k os) h).wr m).pid = 0 ↔
      (h.wr m).pid = 0 ∨ (m ∈ ns ∧ os.pidKnown m = true ∧ k.held (h.wr m).pid (h.wr m).name = false))
  | [], h, m, _ => by simp
  | n :: ns, h, m, hnd => by
    obtain ⟨hn, hnd'⟩ := List.nodup_cons.1 hnd
    rw [List.foldl_cons, prune_slot_eq ns _ m hnd']
    by_cases e : m = n
    · subst e
      have hns : ¬ (m ∈ ns ∧ os.pidKnown m = true ∧
          k.held ((pruneSlot k os h m).wr m).pid ((pruneSlot k os h m).wr m).name = false) := fun h => hn h.1
      rw [or_iff_left hns]
      unfold pruneSlot
      by_cases h0 : (h.wr m).pid = 0
      · rw [if_pos h0]; simp [h0]
      · rw [if_neg h0]
        unfold has_pid_socket
        by_cases hk : os.pidKnown m = false
        · rw [if_pos hk]
          simp [hk, h0]
        · rw [if_neg hk]
          have hk' : os.pidKnown m = true := by simpa using hk
          by_cases hh : k.held (h.wr m).pid (h.wr m).name = true
          · rw [if_pos hh, if_neg (by omega)]; simp [h0, hh]
          · rw [if_neg hh, if_pos rfl, release_pid]
            simp [hk', hh]
    · have : (pruneSlot k os h n).wr m = h.wr m := by
        unfold pruneSlot
        split
        · rfl
        · split
          · exact release_other h e
          · rfl
      rw [this]
      simp [e]

theorem prune_pid_zero (k : Kern) (os : Os) (h : BwH) (m : Nat) : ((prune_handle k os h).wr m).pid = 0 ↔
    (h.wr m).pid = 0 ∨ (m < BW_WAITMAX ∧ os.pidKnown m = true ∧ k.held (h.wr m).pid (h.wr m).name = false) := by
  unfold prune_handle
  rw [prune_slot_eq _ _ _ range_nodup, List.mem_range]

/-- **C38.** If nothing else fails, opening a waiter succeeds if and only if some slot is free or belongs to a dead
waiter whose death can be found out: closed and dead waiters' slots are used again. -/
theorem C38_recycled {s : BSys} {i hi pid : Nat} {os : Os} (hnew : s.ts i = none) (hpid : pid ≠ 0)
    (h1 : os.allocOk = true) (h2 : os.bindOk = true) (h3 : os.selfOk = true) (h4 : os.epollOk = true)
    (h5 : s.kern.lookup os.bindName = none) :
    (s.step (.openWait i hi pid os)).2 = true ↔ ∃ n < 64, s.Reclaimable hi os n := by
  have hfree : (freeSlot (prune_handle s.kern os (s.hd hi))).isSome = true ↔ ∃ n < 64, s.Reclaimable hi os n := by
    unfold BSys.Reclaimable
    constructor
    · intro e
      obtain ⟨n, en⟩ := Option.isSome_iff_exists.1 e
      obtain ⟨f1, f2⟩ := freeSlot_some en
      refine ⟨n, f1, ?_⟩
      rcases (prune_pid_zero _ _ _ _).1 f2 with f | f
      · exact .inl f
      · exact .inr f.2
    · rintro ⟨n, hn, f⟩
      cases ef : freeSlot (prune_handle s.kern os (s.hd hi)) with
      | some m => rfl
      | none =>
        refine absurd ((prune_pid_zero _ _ _ _).2 ?_) (freeSlot_none ef n hn)
        rcases f with f | f
        · exact .inl f
        · exact .inr ⟨hn, f⟩
  rw [← hfree]
  unfold BSys.step
  dsimp only
  rw [if_neg (by rw [hnew]; simp [hpid])]
  unfold BSys.openWait bw_open_wait
  rw [if_neg (by simp [h1])]
  unfold bw_reserve
  cases ef : freeSlot (prune_handle s.kern os (s.hd hi)) with
  | none => simp
  | some n =>
    dsimp only
    unfold make_socket
    rw [if_neg (by simp [h2]), h5]
    simp only [Option.isSome_none, Bool.false_eq_true, if_false, Option.isSome_some, iff_true]
    unfold connect
    rw [if_pos h3, upd_same]
    dsimp only
    rw [upd_same]
    have : ({ socks := s.kern.socks ++ [⟨s.kern.next, os.bindName, pid, 0⟩], next := s.kern.next + 1 } : Kern).lookup os.bindName
        = some s.kern.next := by
      unfold Kern.lookup
      have h6 : s.kern.socks.find? (fun x => x.name == os.bindName) = none := by
        unfold Kern.lookup at h5; simpa using h5
      rw [List.find?_append, h6]
      simp
    rw [this]
    dsimp only
    rw [if_neg (by simp [h4])]

/-! ## Non-vacuity and counterexamples -/

/-- A check that a step is clean, if there are no wakers with identifiers `b` or above. -/
def BSys.cleanStep (b : Nat) (s : BSys) : BOp → Bool
  | .openWait _ _ _ os => (List.range b).all fun j => match s.ts j with
    | some (.wake _ _ w) => (List.range BW_WAITMAX).all fun n => w.fd n == none || w.name n != os.bindName
    | _ => true
  | .openWake i _ _ _ => decide (i < b)
  | _ => true

def BSys.cleanRun (b : Nat) (s : BSys) : List BOp → Bool
  | [] => true
  | op :: ops => s.cleanStep b op && (s.step op).1.cleanRun b ops

/-- No wakers at or above `b`. -/
def BSys.Below (b : Nat) (s : BSys) : Prop := ∀ j hi pid w, s.ts j = some (.wake hi pid w) → j < b

theorem BSys.Below.step {b : Nat} {s : BSys} (h : s.Below b) {op : BOp} (hc : s.cleanStep b op = true) : (s.step op).1.Below b := by
  intro j hi pid w e
  cases op with
  | openWake i a p os =>
    unfold BSys.step at e; dsimp only at e; split at e
    · exact h j hi pid w e
    · by_cases hj : j = i
      · subst hj; simpa [BSys.cleanStep] using hc
      · rw [openWake_ts _ _ _ _ _ hj] at e; exact h j hi pid w e
  | openWait i a p os =>
    unfold BSys.step at e; dsimp only at e; split at e
    · exact h j hi pid w e
    · by_cases hj : j = i
      · subst hj
        rename_i hn
        unfold BSys.openWait at e
        split at e
        · dsimp only at e; rw [upd_same] at e; cases e
        · exact h j hi pid w e
      · rw [openWait_ts _ _ _ _ _ hj] at e; exact h j hi pid w e
  | close i =>
    unfold BSys.step BSys.close at e; dsimp only at e
    split at e
    · dsimp only [upd] at e; split at e
      · cases e
      · exact h j hi pid w e
    · dsimp only [upd] at e; split at e
      · cases e
      · exact h j hi pid w e
    · exact h j hi pid w e
  | wake i os =>
    unfold BSys.step BSys.wake at e; dsimp only at e
    split at e
    · rename_i hi' p' w' ew
      generalize bw_wake s.kern os (s.hd hi') w' = z at e
      obtain ⟨z1, z2, z3, z4⟩ := z
      dsimp only [upd] at e
      split at e
      · rename_i hj; subst hj; exact h _ _ _ _ ew
      · exact h j hi pid w e
    · exact h j hi pid w e
  | force i b os => unfold BSys.step BSys.force at e; dsimp only at e; split at e <;> exact h j hi pid w e
  | ready i os => unfold BSys.step BSys.ready at e; dsimp only at e; split at e <;> exact h j hi pid w e
  | exit p =>
    unfold BSys.step BSys.exit at e; dsimp only at e
    cases e2 : s.ts j with
    | none => rw [e2] at e; cases e
    | some t =>
      rw [e2] at e
      cases t <;> dsimp only at e <;> split at e <;> cases e
      exact h j _ _ _ e2

theorem BSys.clean_of {b : Nat} {s : BSys} (h : s.Below b) {op : BOp} (hc : s.cleanStep b op = true)
    (hsend : ∀ i os, op = .wake i os → ∀ n, os.send n ≠ .fail) : s.Clean op := by
  cases op with
  | openWait i a p os =>
    intro j hi pid w n hn e hfd
    simp only [BSys.cleanStep, List.all_eq_true] at hc
    have := hc j (List.mem_range.2 (h j hi pid w e))
    rw [e] at this
    dsimp only at this
    rw [List.all_eq_true] at this
    have := this n (List.mem_range.2 hn)
    simpa [hfd] using this
  | wake i os => exact hsend i os rfl
  | openWake _ _ _ _ => trivial
  | close _ => trivial
  | force _ _ _ => trivial
  | ready _ _ => trivial
  | exit _ => trivial

theorem BSys.reach_of (b : Nat) : ∀ (ops : List BOp) {s : BSys}, s.Reach → s.Below b → s.cleanRun b ops = true →
    (∀ i os, BOp.wake i os ∈ ops → ∀ n, os.send n ≠ .fail) → (s.runs ops).Reach
  | [], _, h, _, _, _ => h
  | op :: ops, s, h, hb, hc, hs => by
    simp only [BSys.cleanRun, Bool.and_eq_true] at hc
    exact BSys.reach_of b ops (.step op h (BSys.clean_of hb hc.1 (fun i os e => hs i os (by rw [e]; simp)))) (hb.step hc.1) hc.2
      (fun i os h => hs i os (List.mem_cons_of_mem _ h))

/-- The kernel picks the given name. -/
def pick (name : Nat) : Os := { bindName := name }

/-- Two waiters (processes 10 and 20) and a waker (process 30) on handle 0; waiter 0 is killed, waiter 3 takes over its
slot. -/
def bwDemo : List BOp :=
  [.openWait 0 0 10 (pick 100), .openWait 1 0 20 (pick 101), .openWake 2 0 30 {}, .exit 10, .openWait 3 0 40 (pick 102)]

/-- C38 – C40: the demo's steps; the killed waiter's slot is taken over, and one wake reaches both open waiters although the waker's
connection to slot 0 is stale. -/
example : let s := BSys.runs {} bwDemo
    (s.slotOf 3, s.slotOf 1) = (0, 1) ∧ (s.pending 3, s.pending 1) = (0, 0) ∧ (s.step (.wake 2 {})).2 = true ∧
    ((s.step (.wake 2 {})).1.pending 3, (s.step (.wake 2 {})).1.pending 1) = (1, 1) := by
  decide +kernel

/-- The demo is reachable by clean steps: the hypotheses of C38 – C40 are met. -/
example : (BSys.runs {} bwDemo).Reach :=
  BSys.reach_of 3 bwDemo .init (fun j hi pid w e => (by cases e)) (by decide +kernel) (by intro i os h; simp [bwDemo] at h)

/-- 64 waiters: all slots taken, and the state is reachable. -/
example : let ops := (List.range 64).map fun i => BOp.openWait i 0 (i + 1) (pick (i + 100))
    (BSys.runs {} ops).Reach ∧ ((List.range 64).all fun i => (BSys.runs {} ops).slotOf i == i) = true :=
  ⟨BSys.reach_of 0 _ .init (fun j hi pid w e => (by cases e)) (by decide +kernel) (by intro i os h; simp at h), by decide +kernel⟩

/-- **C40, C39 are false if the kernel reuses a name** to which a waker is still connected: waiter 0 is closed, waiter 2 gets
its slot and its name.  The waker's descriptor is still connected to the closed socket; because the
name is unchanged `bw_sync` keeps it, the send fails, and `wake_one` clears the slot of the live waiter.
`bw_wake` returns success; waiter 2 is not woken, now or by any later wake. -/
theorem C40_counterexample_name_reuse :
    let s := BSys.runs {} [.openWait 0 0 10 (pick 100), .openWake 1 0 30 {}, .close 0, .openWait 2 0 40 (pick 100)]
    let s1 := (s.step (.wake 1 {})).1
    ((s.hd 0).wr (s.slotOf 2)).pid = 40 ∧ (s.step (.wake 1 {})).2 = true ∧ s1.pending 2 = 0 ∧ s1.slotOf 2 = 0 ∧
    ((s1.hd 0).wr 0).pid = 0 ∧ (s1.step (.wake 1 {})).2 = true ∧ (s1.step (.wake 1 {})).1.pending 2 = 0 := by
  decide +kernel

/-- **C40, C39 are false if a send fails** for another reason than a full queue (say ENOBUFS): the live waiter loses its
slot, and later wakes do not reach it. -/
theorem C40_counterexample_send_error :
    let s := BSys.runs {} [.openWait 0 0 10 (pick 100), .openWake 1 0 30 {}]
    let s1 := (s.step (.wake 1 { send := fun _ => .fail })).1
    ((s.hd 0).wr 0).pid = 10 ∧ (s.step (.wake 1 { send := fun _ => .fail })).2 = true ∧ ((s1.hd 0).wr 0).pid = 0 ∧
    (s1.step (.wake 1 {})).2 = true ∧ (s1.step (.wake 1 {})).1.pending 0 = 0 := by
  decide +kernel

/-- A killed waiter whose death cannot be established (see C41) makes `bw_wake` fail before it reaches the waiters in
later slots, and makes new wakers fail to open, until its death can be established. -/
theorem C39_counterexample_undetermined :
    let s := BSys.runs {} [.openWake 1 0 30 {}, .openWait 0 0 10 (pick 100), .openWait 2 0 20 (pick 101), .exit 10]
    let os : Os := { pidKnown := fun _ => false, pidKnown' := fun _ => false }
    (s.step (.wake 1 os)).2 = false ∧ (s.step (.wake 1 os)).1.pending 2 = 0 ∧ (s.step (.openWake 3 0 31 os)).2 = false := by
  decide +kernel

end Shr
