import Verif.Props.Bw
import Verif.Model.Wake
/-! # Block/wake steps of one party leave the others' wake-ups alone -/
namespace Shr

theorem find?_congr' {p q : Sock → Bool} : ∀ (l : List Sock), (∀ x ∈ l, p x = q x) → l.find? p = l.find? q
  | [], _ => rfl
  | x :: l, h => by
    rw [List.find?_cons, List.find?_cons, h x (by simp), find?_congr' l fun y hy => h y (by simp [hy])]

theorem pending_filter (k : Kern) (p : Sock → Bool) (t : Nat) (h : ∀ x ∈ k.socks, x.sid = t → p x = true) :
    ({ k with socks := k.socks.filter p } : Kern).pending t = k.pending t := by
  unfold Kern.pending
  congr 2
  dsimp only
  rw [List.find?_filter]
  apply find?_congr'
  intro x hx
  by_cases e : x.sid = t
  · simp [h x hx e, e]
  · simp [e]

theorem pending_close (k : Kern) {sid t : Nat} (h : t ≠ sid) : (k.close sid).pending t = k.pending t :=
  pending_filter k _ t fun x _ e => by simp [e, h]

theorem pending_register (k : Kern) (y : Sock) (n : Nat) {t : Nat} (h : t ≠ y.sid) :
    ({ socks := k.socks ++ [y], next := n } : Kern).pending t = k.pending t := by
  unfold Kern.pending
  dsimp only
  rw [List.find?_append]
  cases k.socks.find? (fun s => s.sid == t) with
  | some x => rfl
  | none => simp [Ne.symm h]

theorem bw_open_wait_pending (k : Kern) (os : Os) (pid : Nat) (h : BwH) {t : Nat} (ht : t < k.next) :
    (bw_open_wait k os pid h).1.pending t = k.pending t := by
  unfold bw_open_wait
  split
  · rfl
  generalize prune_handle k os h = h1
  unfold bw_reserve
  cases freeSlot h1 with
  | none => rfl
  | some n =>
    dsimp only
    unfold make_socket
    by_cases hb : os.bindOk = false
    · rw [if_pos hb]
    rw [if_neg hb]
    by_cases hl : (k.lookup os.bindName).isSome = true
    · rw [if_pos hl]
    · rw [if_neg hl]
      · dsimp only
        have hp := pending_register k ⟨k.next, os.bindName, pid, 0⟩ (k.next + 1) (t := t) (by dsimp only; omega)
        split
        · unfold bwOpenUndo
          dsimp only
          rw [pending_close _ (by omega)]
          exact hp
        · split
          · unfold bwOpenUndo
            dsimp only
            rw [pending_close _ (by omega)]
            exact hp
          · exact hp

/-- The step does not concern the `bw_t` `i` of process `p`. -/
def BOp.avoids (i p : Nat) : BOp → Prop
  | .openWake j _ _ _ => j ≠ i
  | .openWait j _ _ _ => j ≠ i
  | .close j => j ≠ i
  | .wake _ _ => True
  | .force j _ _ => j ≠ i
  | .ready j _ => j ≠ i
  | .exit q => q ≠ p

theorem pending_wait {s : BSys} {i hi p : Nat} {w : WaitT} (e : s.ts i = some (.wait hi p w)) : s.pending i = s.kern.pending w.sid := by
  unfold BSys.pending; rw [e]

theorem step_pending {s : BSys} (hi : BInv s) {op : BOp} (hc : s.Clean op) {i a p : Nat} {w : WaitT} (e : s.ts i = some (.wait a p w))
    (h : op.avoids i p) : s.pending i ≤ (s.step op).1.pending i ∧ ((∀ j os, op ≠ .wake j os) → (s.step op).1.pending i = s.pending i) := by
  have e' : (s.step op).1.ts i = some (.wait a p w) := step_waiting e (by rintro rfl; exact h rfl) (by rintro rfl; exact h rfl)
  rw [pending_wait e, pending_wait e']
  have r := hi.reg i a p w e
  have hlt := r.sid_lt hi.k
  have other : ∀ {j b q : Nat} {v : WaitT}, s.ts j = some (.wait b q v) → j ≠ i → w.sid ≠ v.sid := by
    intro j b q v ej hj h2
    exact hj (hi.dist j i b q v a p w ej e h2.symm)
  have fin : (s.step op).1.kern.pending w.sid = s.kern.pending w.sid →
      s.kern.pending w.sid ≤ (s.step op).1.kern.pending w.sid ∧
      ((∀ j os, op ≠ .wake j os) → (s.step op).1.kern.pending w.sid = s.kern.pending w.sid) := fun h => ⟨by omega, fun _ => h⟩
  cases op with
  | openWake j b q os =>
    apply fin
    unfold BSys.step; dsimp only
    split
    · rfl
    · unfold BSys.openWake; split <;> rfl
  | openWait j b q os =>
    apply fin
    unfold BSys.step; dsimp only
    split
    · rfl
    · have := bw_open_wait_pending s.kern os q (s.hd b) hlt
      unfold BSys.openWait
      generalize bw_open_wait s.kern os q (s.hd b) = z at this
      obtain ⟨k1, h1, o⟩ := z
      cases o <;> exact this
  | close j =>
    apply fin
    unfold BSys.step BSys.close; dsimp only
    split
    · rfl
    · rename_i ej
      exact pending_close _ (other ej h)
    · rfl
  | wake j os =>
    refine ⟨?_, fun h => absurd rfl (h j os)⟩
    unfold BSys.step BSys.wake; dsimp only
    split
    · rename_i b q v ej
      obtain ⟨s1, s2, s3, s4, s5⟩ := bw_wake_spec hi.k hc (hi.heldP _) (hi.wakers j _ _ _ ej) _ rfl
      exact s2 _
    · exact Nat.le_refl _
  | force j want os =>
    apply fin
    unfold BSys.step BSys.force; dsimp only
    split
    · rename_i b q v ej
      have hne := other ej h
      have hs := (hi.reg _ _ _ _ ej).self
      unfold bw_force
      repeat' split
      all_goals first | rfl | (dsimp only; rw [pending_onQ, if_neg (by first | exact hne | (rw [hs]; exact hne))])
    · rfl
  | ready j os =>
    apply fin
    unfold BSys.step BSys.ready; dsimp only
    split
    · rename_i b q v ej
      have hne := other ej h
      unfold bw_ready_ul
      split
      · rfl
      · dsimp only; rw [pending_onQ, if_neg hne]
    · rfl
  | exit q =>
    apply fin
    unfold BSys.step BSys.exit; dsimp only
    refine pending_filter _ _ _ ?_
    intro x hx hxs
    obtain ⟨y, hy, f1, f2, f3⟩ := r.sock
    have : x = y := hi.k.sids x hx y hy (by rw [hxs, f1])
    rw [this, f3]
    simpa using fun h2 : p = q => h h2.symm

theorem runs_append (b : BSys) (xs ys : List BOp) : b.runs (xs ++ ys) = (b.runs xs).runs ys := by
  induction xs generalizing b with
  | nil => rfl
  | cons x xs ih => exact ih _

theorem cleanRun_append {b : BSys} {xs ys : List BOp} : b.CleanRun (xs ++ ys) ↔ b.CleanRun xs ∧ (b.runs xs).CleanRun ys := by
  induction xs generalizing b with
  | nil => simp [BSys.CleanRun, BSys.runs]
  | cons x xs ih => simp only [List.cons_append, BSys.CleanRun, BSys.runs, ih, and_assoc]

theorem succeed_append {S : BOp → Bool} {b : BSys} {xs ys : List BOp} : b.Succeed S (xs ++ ys) ↔ b.Succeed S xs ∧ (b.runs xs).Succeed S ys := by
  induction xs generalizing b with
  | nil => simp [BSys.Succeed, BSys.runs]
  | cons x xs ih => simp only [List.cons_append, BSys.Succeed, BSys.runs, ih, and_assoc]

theorem BInv.runs {b : BSys} (h : BInv b) {ops : List BOp} (hc : b.CleanRun ops) : BInv (b.runs ops) := by
  induction ops generalizing b with
  | nil => exact h
  | cons x xs ih => exact ih (h.step x hc.1) hc.2

theorem runs_pending {b : BSys} (h : BInv b) {ops : List BOp} (hc : b.CleanRun ops) {i a p : Nat} {w : WaitT}
    (e : b.ts i = some (.wait a p w)) (hav : ∀ op ∈ ops, op.avoids i p) :
    (b.runs ops).ts i = some (.wait a p w) ∧ b.pending i ≤ (b.runs ops).pending i ∧
    ((∀ op ∈ ops, ∀ j os, op ≠ .wake j os) → (b.runs ops).pending i = b.pending i) := by
  induction ops generalizing b with
  | nil => exact ⟨e, Nat.le_refl _, fun _ => rfl⟩
  | cons x xs ih =>
    have hx := hav x (by simp)
    have e' : (b.step x).1.ts i = some (.wait a p w) := step_waiting e (by rintro rfl; exact hx rfl) (by rintro rfl; exact hx rfl)
    obtain ⟨h1, h2, h3⟩ := ih (h.step x hc.1) hc.2 e' fun op hop => hav op (by simp [hop])
    obtain ⟨g1, g2⟩ := step_pending h hc.1 e hx
    exact ⟨h1, Nat.le_trans g1 h2, fun hh => (h3 fun op hop => hh op (by simp [hop])).trans (g2 (hh x (by simp)))⟩

/-- A waiter that is not concerned stays. -/
theorem runs_wait {b : BSys} {ops : List BOp} {i a p : Nat} {w : WaitT} (e : b.ts i = some (.wait a p w)) (hav : ∀ op ∈ ops, op.avoids i p) :
    (b.runs ops).ts i = some (.wait a p w) := by
  induction ops generalizing b with
  | nil => exact e
  | cons x xs ih =>
    have hx := hav x (by simp)
    exact ih (step_waiting e (by rintro rfl; exact hx rfl) (by rintro rfl; exact hx rfl)) fun op hop => hav op (by simp [hop])

/-- A `bw_t` not concerned keeps its mode and owner. -/
theorem step_mode {b : BSys} {op : BOp} {i a p : Nat} {v : WakeT} (e : b.ts i = some (.wake a p v)) (h : op.avoids i p) :
    ∃ v', (b.step op).1.ts i = some (.wake a p v') := by
  cases op with
  | openWake j c q os =>
    unfold BSys.step; dsimp only; split
    · exact ⟨v, e⟩
    · exact ⟨v, by rw [openWake_ts _ _ _ _ _ (Ne.symm h), e]⟩
  | openWait j c q os =>
    unfold BSys.step; dsimp only; split
    · exact ⟨v, e⟩
    · exact ⟨v, by rw [openWait_ts _ _ _ _ _ (Ne.symm h), e]⟩
  | close j =>
    have hne : i ≠ j := Ne.symm h
    unfold BSys.step BSys.close; dsimp only
    split
    · exact ⟨v, by dsimp only; rw [upd_other _ _ hne, e]⟩
    · exact ⟨v, by dsimp only; rw [upd_other _ _ hne, e]⟩
    · exact ⟨v, e⟩
  | wake j os =>
    unfold BSys.step BSys.wake; dsimp only
    split
    · rename_i c q u ej
      dsimp only
      by_cases hj : i = j
      · subst hj
        rw [e] at ej; cases ej
        exact ⟨_, upd_same _ _ _⟩
      · exact ⟨v, by rw [upd_other _ _ hj, e]⟩
    · exact ⟨v, e⟩
  | force j c os => unfold BSys.step BSys.force; dsimp only; split <;> exact ⟨v, e⟩
  | ready j os => unfold BSys.step BSys.ready; dsimp only; split <;> exact ⟨v, e⟩
  | exit q =>
    have hne : p ≠ q := Ne.symm h
    unfold BSys.step BSys.exit; dsimp only; rw [e]; dsimp only; rw [if_neg hne]; exact ⟨v, rfl⟩

theorem step_none {b : BSys} {op : BOp} {i : Nat} (e : b.ts i = none) (h : ∀ p, op.avoids i p ∨ (∃ q, op = .exit q)) :
    (b.step op).1.ts i = none := by
  cases op with
  | openWake j c q os =>
    have hne : j ≠ i := (h 0).elim id (fun ⟨_, h⟩ => by cases h)
    unfold BSys.step; dsimp only; split
    · exact e
    · rw [openWake_ts _ _ _ _ _ (Ne.symm hne), e]
  | openWait j c q os =>
    have hne : j ≠ i := (h 0).elim id (fun ⟨_, h⟩ => by cases h)
    unfold BSys.step; dsimp only; split
    · exact e
    · rw [openWait_ts _ _ _ _ _ (Ne.symm hne), e]
  | close j =>
    unfold BSys.step BSys.close; dsimp only
    split
    · dsimp only [upd]; split
      · rfl
      · exact e
    · dsimp only [upd]; split
      · rfl
      · exact e
    · exact e
  | wake j os =>
    unfold BSys.step BSys.wake; dsimp only
    split
    · rename_i c q u ej
      dsimp only
      rw [upd_other _ _ (by rintro rfl; rw [e] at ej; cases ej), e]
    · exact e
  | force j c os => unfold BSys.step BSys.force; dsimp only; split <;> exact e
  | ready j os => unfold BSys.step BSys.ready; dsimp only; split <;> exact e
  | exit q => unfold BSys.step BSys.exit; dsimp only; rw [e]

theorem runs_mode {b : BSys} {ops : List BOp} {i a p : Nat} {v : WakeT} (e : b.ts i = some (.wake a p v))
    (hav : ∀ op ∈ ops, op.avoids i p) : ∃ v', (b.runs ops).ts i = some (.wake a p v') := by
  induction ops generalizing b v with
  | nil => exact ⟨v, e⟩
  | cons x xs ih =>
    obtain ⟨v', e'⟩ := step_mode e (hav x (by simp))
    exact ih e' fun op hop => hav op (by simp [hop])

theorem runs_none {b : BSys} {ops : List BOp} {i : Nat} (e : b.ts i = none) (hav : ∀ op ∈ ops, ∀ p, op.avoids i p ∨ (∃ q, op = .exit q)) :
    (b.runs ops).ts i = none := by
  induction ops generalizing b with
  | nil => exact e
  | cons x xs ih => exact ih (step_none e (hav x (by simp))) fun op hop => hav op (by simp [hop])

/-! ## Effects of single calls -/

theorem wake_pending {b : BSys} (h : BInv b) {j hi p : Nat} {v : WakeT} {os : Os} (hj : b.ts j = some (.wake hi p v))
    (hc : b.Clean (.wake j os)) (hok : (b.step (.wake j os)).2 = true) {i q : Nat} {w : WaitT} (hw : b.ts i = some (.wait hi q w)) :
    1 ≤ (b.step (.wake j os)).1.pending i := h.wake_reaches_all hj hc hok ⟨w, hw⟩

theorem force_pending {b : BSys} (h : BInv b) {i hi p : Nat} {w : WaitT} {want : Bool} {os : Os} (e : b.ts i = some (.wait hi p w))
    (hok : (b.step (.force i want os)).2 = true) :
    (b.step (.force i want os)).1.ts i = some (.wait hi p w) ∧ (1 ≤ (b.step (.force i want os)).1.pending i ↔ want = true) := by
  have r := h.reg i hi p w e
  obtain ⟨x, hx, e1, e2, e3⟩ := r.sock
  have hop : b.kern.isOpen w.sid = true := isOpen_iff.2 ⟨x, hx, e1⟩
  have e' : (b.step (.force i want os)).1.ts i = some (.wait hi p w) := by
    unfold BSys.step BSys.force; dsimp only; rw [e]; exact e
  refine ⟨e', ?_⟩
  rw [pending_wait e']
  unfold BSys.step BSys.force at hok ⊢
  dsimp only at hok ⊢
  rw [e] at hok ⊢
  dsimp only at hok ⊢
  unfold bw_force at hok ⊢
  by_cases h1 : os.ioctlOk = false
  · rw [if_pos h1] at hok; cases hok
  rw [if_neg h1] at hok ⊢
  by_cases h2 : want = false ∧ b.kern.pending w.sid > 0
  · rw [if_pos h2] at hok ⊢
    by_cases h3 : os.drainOk = false
    · rw [if_pos h3] at hok; cases hok
    rw [if_neg h3]
    dsimp only
    rw [pending_onQ, if_pos rfl, if_pos hop, h2.1]
    simp
  rw [if_neg h2] at hok ⊢
  by_cases h3 : want = true ∧ b.kern.pending w.sid = 0
  · rw [if_pos h3] at hok ⊢
    by_cases h4 : os.selfSendOk = false
    · rw [if_pos h4] at hok; cases hok
    rw [if_neg h4]
    dsimp only
    rw [r.self, pending_onQ, if_pos rfl, if_pos hop, h3.1]
    simp
  rw [if_neg h3]
  dsimp only
  cases want
  · have : b.kern.pending w.sid = 0 := by
      by_cases h : b.kern.pending w.sid = 0
      · exact h
      · exact absurd ⟨rfl, by omega⟩ h2
    simp [this]
  · have : b.kern.pending w.sid ≠ 0 := fun h => h3 ⟨rfl, h⟩
    simp; omega

theorem openWait_ok {b : BSys} {i hi p : Nat} {os : Os} (hok : (b.step (.openWait i hi p os)).2 = true) :
    ∃ w, (b.step (.openWait i hi p os)).1.ts i = some (.wait hi p w) := by
  unfold BSys.step at hok ⊢
  dsimp only at hok ⊢
  split at hok
  · cases hok
  rename_i h
  rw [if_neg h]
  unfold BSys.openWait at hok ⊢
  split at hok
  · rename_i k1 h1 w e
    exact ⟨w, upd_same _ _ _⟩
  · cases hok

theorem openWake_ok {b : BSys} {i hi p : Nat} {os : Os} (hok : (b.step (.openWake i hi p os)).2 = true) :
    ∃ v, (b.step (.openWake i hi p os)).1.ts i = some (.wake hi p v) := by
  unfold BSys.step at hok ⊢
  dsimp only at hok ⊢
  split at hok
  · cases hok
  rename_i h
  rw [if_neg h]
  unfold BSys.openWake at hok ⊢
  split at hok
  · rename_i h1 w e
    exact ⟨w, upd_same _ _ _⟩
  · cases hok

/-- A failed open leaves no `bw_t`. -/
theorem open_fail_ts {b : BSys} {i hi p : Nat} {os : Os} :
    ((b.step (.openWait i hi p os)).2 = false → (b.step (.openWait i hi p os)).1.ts = b.ts) ∧
    ((b.step (.openWake i hi p os)).2 = false → (b.step (.openWake i hi p os)).1.ts = b.ts) := by
  constructor
  · intro hok
    unfold BSys.step at hok ⊢
    dsimp only at hok ⊢
    split at hok
    · rename_i h; rw [if_pos h]
    rename_i h
    rw [if_neg h]
    unfold BSys.openWait at hok ⊢
    split at hok
    · cases hok
    · rfl
  · intro hok
    unfold BSys.step at hok ⊢
    dsimp only at hok ⊢
    split at hok
    · rename_i h; rw [if_pos h]
    rename_i h
    rw [if_neg h]
    unfold BSys.openWake at hok ⊢
    split at hok
    · cases hok
    · rfl

theorem close_ts (b : BSys) (i : Nat) : (b.step (.close i)).1.ts i = none := by
  unfold BSys.step BSys.close; dsimp only
  split
  · exact upd_same _ _ _
  · exact upd_same _ _ _
  · rename_i h; exact h

end Shr
