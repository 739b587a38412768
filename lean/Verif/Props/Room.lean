import Verif.Props.Bw
/-! # C38: a table of waiters has room for 64 -/
namespace Shr

/-- Every slot is in `h'` as it is in `h`, or it is free. -/
def Sheds (h h' : BwH) : Prop := ∀ n, h'.wr n = h.wr n ∨ (h'.wr n).pid = 0

theorem Sheds.refl (h : BwH) : Sheds h h := fun _ => .inl rfl
theorem Sheds.trans {a b c : BwH} (h : Sheds a b) (g : Sheds b c) : Sheds a c := by
  intro n
  rcases g n with e | e
  · rcases h n with f | f
    · exact .inl (by rw [e, f])
    · exact .inr (by rw [e, f])
  · exact .inr e

theorem Sheds.pid {h h' : BwH} (e : Sheds h h') (n : Nat) : (h'.wr n).pid = (h.wr n).pid ∨ (h'.wr n).pid = 0 :=
  (e n).imp_left fun q => by rw [q]

theorem sheds_release (h : BwH) (n : Nat) : Sheds h (h.release n) := by
  intro m
  by_cases e : m = n
  · rw [e]; exact .inr (release_pid h n)
  · exact .inl (by rw [release_other h e])

theorem sheds_pruneSlot (k : Kern) (os : Os) (h : BwH) (n : Nat) : Sheds h (pruneSlot k os h n) := by
  unfold pruneSlot
  split
  · exact .refl h
  · split
    · exact sheds_release h n
    · exact .refl h

theorem sheds_foldl {f : BwH → Nat → BwH} (hf : ∀ h n, Sheds h (f h n)) (l : List Nat) : ∀ h, Sheds h (l.foldl f h) := by
  induction l with
  | nil => intro h; exact .refl h
  | cons n l ih => intro h; exact (hf h n).trans (ih _)

theorem sheds_prune (k : Kern) (os : Os) (h : BwH) : Sheds h (prune_handle k os h) := sheds_foldl (sheds_pruneSlot k os) _ h

theorem sheds_openSocket (k : Kern) (os : Os) (h : BwH) (w : WakeT) (n : Nat) : Sheds h (open_socket k os h w n).1 := by
  unfold open_socket
  split
  · exact .refl h
  · split
    · exact .refl h
    · split
      · exact sheds_release h n
      · exact .refl h

theorem sheds_syncSlot (k : Kern) (os : Os) (h : BwH) (w : WakeT) (n : Nat) : Sheds h (syncSlot k os h w n).1 := by
  unfold syncSlot
  dsimp only
  generalize (if w.fd n ≠ none ∧ ((h.wr n).pid = 0 ∨ (h.wr n).name ≠ w.name n) then { w with fd := upd w.fd n none } else w) = w1
  split
  · exact sheds_openSocket k os h _ n
  · exact .refl h

theorem sheds_syncLoop (k : Kern) (os : Os) (l : List Nat) : ∀ h w, Sheds h (syncLoop k os l h w).1 := by
  induction l with
  | nil => intro h w; exact .refl h
  | cons n l ih =>
    intro h w
    have e := sheds_syncSlot k os h w n
    unfold syncLoop
    cases hs : syncSlot k os h w n with
    | mk h' r =>
      obtain ⟨w', b⟩ := r
      rw [hs] at e
      cases b
      · exact e
      · exact e.trans (ih h' w')

theorem sheds_sync (k : Kern) (os : Os) (h : BwH) (w : WakeT) : Sheds h (bw_sync k os h w).1 := by
  unfold bw_sync
  split
  · exact .refl h
  · have e := sheds_syncLoop k os (List.range BW_WAITMAX) h w
    cases hs : syncLoop k os (List.range BW_WAITMAX) h w with
    | mk h' r => obtain ⟨w', b⟩ := r; rw [hs] at e; cases b <;> exact e

theorem sheds_wakeSlot (os : Os) (x : Kern × BwH × WakeT) (n : Nat) : Sheds x.2.1 (wakeSlot os x n).2.1 := by
  unfold wakeSlot
  split
  · exact .refl _
  · rename_i sid _
    cases sendmsg x.1 sid (os.send n) with
    | mk k r => cases r <;> first | exact sheds_release _ n | exact .refl _

theorem sheds_wakeLoop (os : Os) (l : List Nat) : ∀ x : Kern × BwH × WakeT, Sheds x.2.1 (l.foldl (wakeSlot os) x).2.1 := by
  induction l with
  | nil => intro x; exact .refl _
  | cons n l ih => intro x; exact (sheds_wakeSlot os x n).trans (ih _)

theorem sheds_wake (k : Kern) (os : Os) (h : BwH) (w : WakeT) : Sheds h (bw_wake k os h w).2.1 := by
  unfold bw_wake
  have e := sheds_sync k os h w
  cases hs : bw_sync k os h w with
  | mk h' r =>
    obtain ⟨w', b⟩ := r
    rw [hs] at e
    cases b
    · exact e
    · have g := sheds_wakeLoop os (List.range BW_WAITMAX) (k, h', w')
      generalize List.range BW_WAITMAX = l at g ⊢
      exact e.trans g

theorem sheds_openWake (k : Kern) (os : Os) (h : BwH) : Sheds h (bw_open_wake k os h).1 := by
  unfold bw_open_wake
  split
  · exact .refl h
  · have e := (sheds_prune k os h).trans (sheds_sync k os (prune_handle k os h) {})
    cases hs : bw_sync k os (prune_handle k os h) {} with
    | mk h' r => obtain ⟨w', b⟩ := r; rw [hs] at e; cases b <;> exact e

/-- Opening a waiter takes at most one slot. -/
theorem openWait_one (k : Kern) (os : Os) (pid : Nat) (h : BwH) :
    ∃ n, ∀ m, m ≠ n → ((bw_open_wait k os pid h).2.1.wr m).pid = (h.wr m).pid ∨ ((bw_open_wait k os pid h).2.1.wr m).pid = 0 := by
  have e := sheds_prune k os h
  unfold bw_open_wait
  by_cases ha : os.allocOk = false
  · rw [if_pos ha]; exact ⟨0, fun m _ => .inl rfl⟩
  · rw [if_neg ha]
    generalize prune_handle k os h = p at e
    unfold bw_reserve
    cases freeSlot p with
    | none => exact ⟨0, fun m _ => e.pid m⟩
    | some n =>
      refine ⟨n, ?_⟩
      intro m hm
      have e := e.pid m
      have hu : ∀ (f : Nat → WSlot) (x : WSlot), upd f n x m = f m := fun f x => upd_other _ _ hm
      unfold make_socket
      dsimp only
      by_cases h1 : os.bindOk = false
      · rw [if_pos h1]; exact e
      · rw [if_neg h1]
        by_cases h2 : (k.lookup os.bindName).isSome = true
        · rw [if_pos h2]; exact e
        · rw [if_neg h2]
          dsimp only
          generalize connect _ _ _ = c
          cases c with
          | none => simp only [bwOpenUndo, hu]; exact e
          | some t =>
            by_cases h3 : os.epollOk = false
            · simp only [h3, if_true, bwOpenUndo, hu]; exact e
            · simp only [h3, Bool.true_eq_false, if_false, hu]; exact e

/-- How many of the slots in `l` are taken. -/
def taken (h : BwH) (l : List Nat) : Nat := l.countP fun n => (h.wr n).pid != 0

theorem taken_mono {h h' : BwH} {l : List Nat} (g : ∀ m ∈ l, (h'.wr m).pid = (h.wr m).pid ∨ (h'.wr m).pid = 0) : taken h' l ≤ taken h l := by
  apply List.countP_mono_left
  intro n hn hp
  simp only [bne_iff_ne, ne_eq] at hp ⊢
  intro h0
  rcases g n hn with e | e
  · rw [e] at hp; exact hp h0
  · exact hp e

theorem taken_one {h h' : BwH} {n : Nat} (g : ∀ m, m ≠ n → (h'.wr m).pid = (h.wr m).pid ∨ (h'.wr m).pid = 0) :
    ∀ {l : List Nat}, l.Nodup → taken h' l ≤ taken h l + 1 := by
  intro l
  induction l with
  | nil => intro _; exact Nat.zero_le _
  | cons a l ih =>
    intro hd
    obtain ⟨h1, h2⟩ := List.nodup_cons.1 hd
    by_cases ha : a = n
    · have : taken h' l ≤ taken h l := taken_mono fun m hm => g m (by rintro rfl; exact h1 (ha ▸ hm))
      unfold taken at this ⊢
      rw [List.countP_cons, List.countP_cons]
      split <;> split <;> omega
    · have i := ih h2
      have e := g a ha
      unfold taken at i ⊢
      rw [List.countP_cons, List.countP_cons]
      by_cases c : (h'.wr a).pid = 0
      · rw [show ((h'.wr a).pid != 0) = false by simp [c]]; simp only [Bool.false_eq_true, if_false]; omega
      · have c' : (h.wr a).pid ≠ 0 := by
          rcases e with e | e
          · rw [← e]; exact c
          · exact absurd e c
        rw [show ((h'.wr a).pid != 0) = true by simp [c], show ((h.wr a).pid != 0) = true by simp [c']]; simp only [if_true]; omega

/-- The calls in a history that open a waiter on the table `hi`. -/
def BOp.waitsOn (hi : Nat) : BOp → Bool
  | .openWait _ hi' _ _ => hi' == hi
  | _ => false

theorem upd_eq_or {α : Type} (f : Nat → α) (k j : Nat) (x : α) : (upd f k x j = x ∧ j = k) ∨ (upd f k x j = f j ∧ j ≠ k) := by
  by_cases e : j = k
  · exact .inl ⟨by rw [e]; exact upd_same _ _ _, e⟩
  · exact .inr ⟨upd_other _ _ e, e⟩

theorem taken_step (s : BSys) (op : BOp) (hi : Nat) :
    taken ((s.step op).1.hd hi) (List.range 64) ≤ taken (s.hd hi) (List.range 64) + (if op.waitsOn hi then 1 else 0) := by
  have shed : ∀ {h' : BwH} {hi' : Nat}, Sheds (s.hd hi') h' → taken (upd s.hd hi' h' hi) (List.range 64) ≤ taken (s.hd hi) (List.range 64) := by
    intro h' hi' g
    rcases upd_eq_or s.hd hi' hi h' with ⟨e, rfl⟩ | ⟨e, _⟩
    · rw [e]; exact taken_mono fun m _ => g.pid m
    · rw [e]; exact Nat.le_refl _
  cases op with
  | openWake i hi' pid os =>
    refine Nat.le_trans ?_ (Nat.le_add_right _ _)
    unfold BSys.step
    dsimp only
    split
    · exact Nat.le_refl _
    · unfold BSys.openWake
      have g := sheds_openWake s.kern os (s.hd hi')
      cases hb : bw_open_wake s.kern os (s.hd hi') with
      | mk h' o => rw [hb] at g; cases o <;> exact shed g
  | openWait i hi' pid os =>
    unfold BSys.step
    dsimp only
    split
    · exact Nat.le_add_right _ _
    · unfold BSys.openWait
      obtain ⟨n, g⟩ := openWait_one s.kern os pid (s.hd hi')
      cases hb : bw_open_wait s.kern os pid (s.hd hi') with
      | mk k' r =>
        obtain ⟨h', o⟩ := r
        rw [hb] at g
        have : taken (upd s.hd hi' h' hi) (List.range 64) ≤ taken (s.hd hi) (List.range 64) + (if (BOp.openWait i hi' pid os).waitsOn hi then 1 else 0) := by
          rcases upd_eq_or s.hd hi' hi h' with ⟨e, rfl⟩ | ⟨e, _⟩
          · rw [e]
            simp only [BOp.waitsOn, beq_self_eq_true, if_true]
            exact taken_one g List.nodup_range
          · rw [e]; exact Nat.le_add_right _ _
        cases o <;> exact this
  | close i =>
    refine Nat.le_trans ?_ (Nat.le_add_right _ _)
    unfold BSys.step
    dsimp only
    unfold BSys.close
    cases s.ts i with
    | none => exact Nat.le_refl _
    | some t =>
      cases t with
      | wake _ _ _ => exact Nat.le_refl _
      | wait hi' _ w => exact shed (sheds_release _ _)
  | wake i os =>
    refine Nat.le_trans ?_ (Nat.le_add_right _ _)
    unfold BSys.step
    dsimp only
    unfold BSys.wake
    cases s.ts i with
    | none => exact Nat.le_refl _
    | some t =>
      cases t with
      | wait _ _ _ => exact Nat.le_refl _
      | wake hi' pid w =>
        have g := sheds_wake s.kern os (s.hd hi') w
        dsimp only
        cases hb : bw_wake s.kern os (s.hd hi') w with
        | mk k' r =>
          obtain ⟨h', w', ok⟩ := r
          rw [hb] at g
          exact shed g
  | force i want os =>
    refine Nat.le_trans (Nat.le_of_eq ?_) (Nat.le_add_right _ _)
    unfold BSys.step
    dsimp only
    unfold BSys.force
    cases s.ts i with
    | none => rfl
    | some t => cases t <;> rfl
  | ready i os =>
    refine Nat.le_trans (Nat.le_of_eq ?_) (Nat.le_add_right _ _)
    unfold BSys.step
    dsimp only
    unfold BSys.ready
    cases s.ts i with
    | none => rfl
    | some t => cases t <;> rfl
  | exit pid => exact Nat.le_add_right _ _

theorem taken_runs (hi : Nat) (ops : List BOp) : ∀ s : BSys,
    taken ((s.runs ops).hd hi) (List.range 64) ≤ taken (s.hd hi) (List.range 64) + ops.countP (BOp.waitsOn hi) := by
  induction ops with
  | nil => intro s; exact Nat.le_refl _
  | cons op ops ih =>
    intro s
    have h1 := ih (s.step op).1
    have h2 := taken_step s op hi
    rw [List.countP_cons]
    have : s.runs (op :: ops) = (s.step op).1.runs ops := rfl
    rw [this]
    omega

/-- **C38.** A fresh table has room for 64 waiters: after any history whatever, of all processes, in which fewer than 64 calls tried to open a waiter on the
table, and no matter what failed or who died on the way, opening another one succeeds if its own system calls do. -/
theorem C38_room {ops : List BOp} {i hi pid : Nat} {os : Os} (hc : ops.countP (BOp.waitsOn hi) < 64)
    (hnew : (BSys.runs {} ops).ts i = none) (hpid : pid ≠ 0)
    (h1 : os.allocOk = true) (h2 : os.bindOk = true) (h3 : os.selfOk = true) (h4 : os.epollOk = true)
    (h5 : (BSys.runs {} ops).kern.lookup os.bindName = none) :
    ((BSys.runs {} ops).step (.openWait i hi pid os)).2 = true := by
  rw [C38_recycled hnew hpid h1 h2 h3 h4 h5]
  have ht := taken_runs hi ops {}
  have h0 : taken (({} : BSys).hd hi) (List.range 64) = 0 := by
    unfold taken
    rw [List.countP_eq_zero]
    intro n _
    simp
  rw [h0] at ht
  have : ∃ n ∈ List.range 64, ¬ (((BSys.runs {} ops).hd hi).wr n).pid ≠ 0 := by
    refine Classical.byContradiction fun hn => ?_
    have : taken ((BSys.runs {} ops).hd hi) (List.range 64) = (List.range 64).length := by
      unfold taken
      rw [List.countP_eq_length]
      intro n hm
      simp only [bne_iff_ne, ne_eq]
      exact Classical.byContradiction fun h => hn ⟨n, hm, h⟩
    rw [List.length_range] at this
    omega
  obtain ⟨n, hn, hp⟩ := this
  exact ⟨n, List.mem_range.1 hn, .inl (Classical.not_not.1 hp)⟩

/-- The third waiter, after one was closed and another one's process died. -/
example : ((BSys.runs {} [.openWait 0 0 10 (pick 100), .close 0, .openWait 1 0 20 (pick 101), .exit 20]).step (.openWait 2 0 30 (pick 102))).2 = true :=
  C38_room (by decide +kernel) (by decide +kernel) (by decide) rfl rfl rfl rfl (by decide +kernel)

end Shr
