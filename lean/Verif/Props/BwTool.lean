import Verif.Model.BwTool
import Verif.Proof.WakeOpen
import Verif.Props.BwKill
/-! # C99: what the exit status of the program bw-tool says, and what a run leaves behind -/
namespace Shr
open BSys

/-! ## Specification -/

/-- What one select or epoll_wait can report: `wakeup` only if a datagram is pending at the waiter (select may also have seen a signal in
the epoll set that came after it had looked at the signalfd), `signal` only if a signal has come; and a signal stays. -/
structure BtFits (c : BtCfg) (e : BtEnv) (s : BSys) : Prop where
  wakeup : e.look = .wakeup → 1 ≤ (s.runs (btLooked c e)).pending c.i ∨ (c.useApi = false ∧ e.sig1 = true)
  signal : e.look = .signal → e.sig1 = true
  stays : e.sig1 = true → e.sig2 = true

/-- The calls of the others are theirs: not with the program's `bw_t`, and the program is not killed. -/
def BtOthers (c : BtCfg) (e : BtEnv) : Prop := ∀ k, ∀ op ∈ e.others k, op.avoids c.i c.pid ∧ ∀ os, op ≠ .wake c.i os

/-! ## Proofs -/

/-- A new waiter has no datagrams. -/
theorem openWait_empty {b : BSys} (hb : BInv b) {i hi p : Nat} {os : Os} (hok : (b.step (.openWait i hi p os)).2 = true) :
    (b.step (.openWait i hi p os)).1.pending i = 0 := by
  unfold BSys.step at hok ⊢
  dsimp only at hok ⊢
  by_cases h : (b.ts i).isSome = true ∨ p = 0
  · rw [if_pos h] at hok; cases hok
  rw [if_neg h] at hok ⊢
  unfold BSys.openWait bw_open_wait at hok ⊢
  by_cases hal : os.allocOk = false
  · rw [if_pos hal] at hok; cases hok
  rw [if_neg hal] at hok ⊢
  generalize prune_handle b.kern os (b.hd hi) = g at hok ⊢
  unfold bw_reserve at hok ⊢
  cases ef : freeSlot g with
  | none => rw [ef] at hok; cases hok
  | some n =>
    rw [ef] at hok
    dsimp only at hok ⊢
    unfold make_socket at hok ⊢
    by_cases hbd : os.bindOk = false
    · rw [if_pos hbd] at hok; cases hok
    rw [if_neg hbd] at hok ⊢
    by_cases hl : (b.kern.lookup os.bindName).isSome = true
    · rw [if_pos hl] at hok; cases hok
    rw [if_neg hl] at hok ⊢
    dsimp only at hok ⊢
    generalize connect { socks := b.kern.socks ++ [⟨b.kern.next, os.bindName, p, 0⟩], next := b.kern.next + 1 }
        ((upd (upd g.wr n { g.wr n with name := os.bindName }) n
          { (upd g.wr n { g.wr n with name := os.bindName }) n with pid := p }) n).name os.selfOk = cn at hok ⊢
    cases cn with
    | none => cases hok
    | some to' =>
      dsimp only at hok ⊢
      by_cases hep : os.epollOk = false
      · rw [if_pos hep] at hok; cases hok
      rw [if_neg hep]
      dsimp only
      unfold BSys.pending
      dsimp only
      rw [upd_same]
      dsimp only
      unfold Kern.pending
      rw [List.find?_append]
      have : b.kern.socks.find? (fun s => s.sid == b.kern.next) = none := by
        rw [List.find?_eq_none]
        intro x hx
        have := hb.k.lt x hx
        simp; omega
      rw [this]
      simp

/-- A call of the program itself. -/
def BtCfg.own (c : BtCfg) (op : BOp) : Prop :=
  (∃ os, op = .openWake c.i c.hi c.pid os) ∨ (∃ os, op = .openWait c.i c.hi c.pid os) ∨ op = .close c.i ∨ (∃ os, op = .wake c.i os) ∨
  (∃ b os, op = .force c.i b os) ∨ (∃ os, op = .ready c.i os)

/-- A call of the program or of the others. -/
def BtCfg.any (c : BtCfg) (e : BtEnv) (op : BOp) : Prop := (∃ k, op ∈ e.others k) ∨ c.own op

theorem bt_any_append {c : BtCfg} {e : BtEnv} {xs ys : List BOp} (h1 : ∀ op ∈ xs, c.any e op) (h2 : ∀ op ∈ ys, c.any e op) :
    ∀ op ∈ xs ++ ys, c.any e op := fun op h => (List.mem_append.1 h).elim (h1 op) (h2 op)

theorem bt_any_own {c : BtCfg} {e : BtEnv} {x : BOp} (h : c.own x) : ∀ op ∈ [x], c.any e op := fun op h' => by
  rw [List.mem_singleton.1 h']; exact .inr h

theorem bt_any_others {c : BtCfg} {e : BtEnv} (k : Nat) : ∀ op ∈ e.others k, c.any e op := fun _ h => .inl ⟨k, h⟩

theorem bt_any_nil {c : BtCfg} {e : BtEnv} : ∀ op ∈ ([] : List BOp), c.any e op := fun _ h => (by cases h)

theorem btWake_any (c : BtCfg) (e : BtEnv) (s : BSys) : ∀ op ∈ (btWake c e s).1, c.any e op := by
  have h1 : ∀ op ∈ e.others 0 ++ [.openWake c.i c.hi c.pid (e.os 0)], c.any e op :=
    bt_any_append (bt_any_others 0) (bt_any_own (.inl ⟨_, rfl⟩))
  have h2 := bt_any_append h1 (bt_any_others (c := c) (e := e) 1)
  have h3 := bt_any_append h2 (bt_any_own (c := c) (e := e) (x := .wake c.i (e.os 1)) (.inr (.inr (.inr (.inl ⟨_, rfl⟩)))))
  unfold btWake
  dsimp only
  repeat' split
  all_goals first
    | exact bt_any_nil
    | exact h1
    | exact h2
    | exact h3
    | exact bt_any_append (bt_any_append h3 (bt_any_others 2)) (bt_any_own (.inr (.inr (.inl rfl))))

theorem btWaitEnd_any (c : BtCfg) (e : BtEnv) {t : List BOp} (ht : ∀ op ∈ t, c.any e op) : ∀ op ∈ (btWaitEnd c e t).1, c.any e op := by
  have h1 := bt_any_append ht (bt_any_others (c := c) (e := e) 2)
  have f1 : ∀ op ∈ (if c.forceReady then [BOp.force c.i true (e.os 2)] else []), c.any e op := by
    split
    · exact bt_any_own (.inr (.inr (.inr (.inr (.inl ⟨_, _, rfl⟩)))))
    · exact bt_any_nil
  have f2 : ∀ op ∈ (if c.forceClear then [BOp.force c.i false (e.os 3)] else []), c.any e op := by
    split
    · exact bt_any_own (.inr (.inr (.inr (.inr (.inl ⟨_, _, rfl⟩)))))
    · exact bt_any_nil
  have h2 := bt_any_append (bt_any_append h1 f1) f2
  unfold btWaitEnd
  dsimp only
  by_cases a1 : e.lockOk 1 = false
  · rw [if_pos a1]; exact h1
  rw [if_neg a1]
  by_cases a2 : btAwait2 e = false
  · rw [if_pos a2]; exact h2
  rw [if_neg a2]
  exact bt_any_append (bt_any_append h2 (bt_any_others 3)) (bt_any_own (.inr (.inr (.inl rfl))))

theorem btLooked_any (c : BtCfg) (e : BtEnv) : ∀ op ∈ btLooked c e, c.any e op :=
  bt_any_append (bt_any_append (bt_any_others 0) (bt_any_own (.inr (.inl ⟨_, rfl⟩)))) (bt_any_others 1)

theorem btWaitUl_any (c : BtCfg) (e : BtEnv) (s : BSys) : ∀ op ∈ (btWaitUl c e s).1, c.any e op := by
  unfold btWaitUl
  split
  · exact bt_any_nil
  · exact bt_any_nil
  · exact bt_any_own (.inr (.inr (.inr (.inr (.inr ⟨_, rfl⟩)))))

theorem btWait_any (c : BtCfg) (e : BtEnv) (s : BSys) : ∀ op ∈ (btWait c e s).1, c.any e op := by
  have h1 : ∀ op ∈ e.others 0 ++ [.openWait c.i c.hi c.pid (e.os 0)], c.any e op :=
    bt_any_append (bt_any_others 0) (bt_any_own (.inr (.inl ⟨_, rfl⟩)))
  have h2 := btLooked_any c e
  have h3 := bt_any_append h2 (btWaitUl_any c e (s.runs (btLooked c e)))
  have h4 := bt_any_append h2 (bt_any_own (c := c) (e := e) (x := .ready c.i (e.os 1)) (.inr (.inr (.inr (.inr (.inr ⟨_, rfl⟩))))))
  unfold btWait
  dsimp only
  repeat' split
  all_goals first
    | exact bt_any_nil
    | exact h1
    | exact h2
    | exact h3
    | exact h4
    | exact bt_any_append (bt_any_append h3 (bt_any_others 2)) (bt_any_own (.inr (.inr (.inl rfl))))
    | exact btWaitEnd_any c e h3
    | exact btWaitEnd_any c e h4

theorem btMain_any (c : BtCfg) (e : BtEnv) (s : BSys) (w : BtWord) : ∀ op ∈ (btMain c e s w).1, c.any e op := by
  unfold btMain
  split
  · exact bt_any_nil
  · split
    · exact btWake_any c e s
    · exact btWait_any c e s
    · exact bt_any_nil

/-! ## C99 -/

/-- **C99.** If `wake` exits with status 0 then at some moment of the run it made a `bw_wake` that left a datagram at every waiter that
was open on the handle at that moment. -/
theorem C99_wake_reached {s : BSys} (h : s.KReach) {c : BtCfg} {e : BtEnv} (ho : BtOthers c e)
    (hc : s.CleanRun (btMain c e s .wake).1) (h0 : (btMain c e s .wake).2 = 0) :
    ∃ pre os post, (btMain c e s .wake).1 = pre ++ .wake c.i os :: post ∧
      ∀ j pid, (s.runs pre).Waiting j c.hi pid → (s.runs (pre ++ [.wake c.i os])).Waiting j c.hi pid ∧ 1 ≤ (s.runs (pre ++ [.wake c.i os])).pending j := by
  unfold btMain at h0 hc ⊢
  by_cases a0 : e.sigFdOk = false
  · rw [if_pos a0] at h0; cases h0
  rw [if_neg a0] at h0 hc ⊢
  dsimp only at h0 hc ⊢
  unfold btWake at h0 hc ⊢
  dsimp only at h0 hc ⊢
  by_cases a1 : e.mapOk = false ∨ e.lockOk 0 = false
  · rw [if_pos a1] at h0; cases h0
  rw [if_neg a1] at h0 hc ⊢
  by_cases a2 : ((s.runs (e.others 0)).step (.openWake c.i c.hi c.pid (e.os 0))).2 = false
  · rw [if_pos a2] at h0; cases h0
  rw [if_neg a2] at h0 hc ⊢
  by_cases a3 : e.unlockOk 0 = false
  · rw [if_pos a3] at h0; cases h0
  rw [if_neg a3] at h0 hc ⊢
  by_cases a4 : e.lockOk 1 = false
  · rw [if_pos a4] at h0; cases h0
  rw [if_neg a4] at h0 hc ⊢
  by_cases a5 : ((s.runs (e.others 0 ++ [.openWake c.i c.hi c.pid (e.os 0)] ++ e.others 1)).step (.wake c.i (e.os 1))).2 = false
  · rw [if_pos a5] at h0; cases h0
  rw [if_neg a5] at h0 hc ⊢
  dsimp only at h0 hc ⊢
  refine ⟨e.others 0 ++ [.openWake c.i c.hi c.pid (e.os 0)] ++ e.others 1, e.os 1, e.others 2 ++ [.close c.i], by simp, ?_⟩
  obtain ⟨v, hv⟩ := openWake_ok (by simpa using a2)
  have hm : ∃ v', (s.runs (e.others 0 ++ [.openWake c.i c.hi c.pid (e.os 0)] ++ e.others 1)).ts c.i = some (.wake c.hi c.pid v') := by
    rw [runs_append, runs_append]
    exact runs_mode hv fun op hop => (ho 1 op hop).1
  have hcl := (cleanRun_append.1 hc).1
  have hcl := (cleanRun_append.1 hcl).1
  obtain ⟨g1, g2⟩ := cleanRun_append.1 hcl
  have hinv := h.inv.runs g1
  obtain ⟨v', hv'⟩ := hm
  rintro j pid ⟨w, hw⟩
  rw [runs_append s (e.others 0 ++ [BOp.openWake c.i c.hi c.pid (e.os 0)] ++ e.others 1)]
  exact ⟨⟨w, step_waiting hw (by simp) (by simp)⟩, wake_pending hinv hv' g2.1 (by simpa using a5) hw⟩

/-- The end of a `wait` that exits with status 0. -/
theorem btWaitEnd_zero {c : BtCfg} {e : BtEnv} {t : List BOp} (h0 : (btWaitEnd c e t).2 = 0) :
    e.sig2 = false ∧ ∃ u, (btWaitEnd c e t).1 = t ++ u ++ [.close c.i] ∧ ∀ op ∈ u, (∃ k, op ∈ e.others k) ∨ ∃ b os, op = .force c.i b os := by
  unfold btWaitEnd at h0 ⊢
  dsimp only at h0 ⊢
  by_cases a1 : e.lockOk 1 = false
  · rw [if_pos a1] at h0; cases h0
  rw [if_neg a1] at h0 ⊢
  by_cases a2 : btAwait2 e = false
  · rw [if_pos a2] at h0; cases h0
  rw [if_neg a2]
  constructor
  · unfold btAwait2 at a2
    cases h : e.sig2
    · rfl
    · rw [h] at a2; simp at a2
  · refine ⟨e.others 2 ++ (if c.forceReady then [.force c.i true (e.os 2)] else []) ++
      (if c.forceClear then [.force c.i false (e.os 3)] else []) ++ e.others 3, by simp, ?_⟩
    intro op hop
    rw [List.mem_append, List.mem_append, List.mem_append] at hop
    rcases hop with ((h | h) | h) | h
    · exact .inl ⟨_, h⟩
    · split at h
      · exact .inr ⟨_, _, List.mem_singleton.1 h⟩
      · cases h
    · split at h
      · exact .inr ⟨_, _, List.mem_singleton.1 h⟩
      · cases h
    · exact .inl ⟨_, h⟩

/-- A `wait` that exits with status 0. -/
theorem btWait_zero {c : BtCfg} {e : BtEnv} {s : BSys} (h0 : (btMain c e s .wait).2 = 0) :
    ((s.runs (e.others 0)).step (.openWait c.i c.hi c.pid (e.os 0))).2 = true ∧ e.sig2 = false ∧
    (e.look = .wakeup ∨ (c.useApi = true ∧ e.look ≠ .wakeup)) ∧
    ∃ u, (btMain c e s .wait).1 = btLooked c e ++ u ++ [.close c.i] ∧
      ∀ op ∈ u, (∃ k, op ∈ e.others k) ∨ (∃ b os, op = .force c.i b os) ∨ (∃ os, op = .ready c.i os) := by
  unfold btMain at h0 ⊢
  by_cases a0 : e.sigFdOk = false
  · rw [if_pos a0] at h0; cases h0
  rw [if_neg a0] at h0 ⊢
  dsimp only at h0 ⊢
  unfold btWait at h0 ⊢
  dsimp only at h0 ⊢
  by_cases a1 : e.mapOk = false ∨ e.lockOk 0 = false
  · rw [if_pos a1] at h0; cases h0
  rw [if_neg a1] at h0 ⊢
  by_cases a2 : ((s.runs (e.others 0)).step (.openWait c.i c.hi c.pid (e.os 0))).2 = false
  · rw [if_pos a2] at h0; cases h0
  rw [if_neg a2] at h0 ⊢
  refine ⟨by simpa using a2, ?_⟩
  by_cases a3 : e.unlockOk 0 = false
  · rw [if_pos a3] at h0; cases h0
  rw [if_neg a3] at h0 ⊢
  by_cases a4 : e.ctlOk = false
  · rw [if_pos a4] at h0; cases h0
  rw [if_neg a4] at h0 ⊢
  by_cases a5 : c.useApi = true
  · rw [if_pos a5] at h0 ⊢
    have hne : (btWaitUl c e (s.runs (btLooked c e))).2 ≠ -2 := by
      unfold btWaitUl
      split <;> dsimp only <;> try decide
      split <;> decide
    rw [if_neg hne] at h0 ⊢
    obtain ⟨g1, u, g2, g3⟩ := btWaitEnd_zero h0
    refine ⟨g1, ?_, (btWaitUl c e (s.runs (btLooked c e))).1 ++ u, by rw [g2]; simp, ?_⟩
    · by_cases hl : e.look = .wakeup
      · exact .inl hl
      · exact .inr ⟨a5, hl⟩
    · intro op hop
      rcases List.mem_append.1 hop with h | h
      · unfold btWaitUl at h
        split at h
        · cases h
        · cases h
        · exact .inr (.inr ⟨_, List.mem_singleton.1 h⟩)
      · rcases g3 op h with h | h
        · exact .inl h
        · exact .inr (.inl h)
  · rw [if_neg a5] at h0 ⊢
    by_cases a6 : btAwait e = false
    · rw [if_pos a6] at h0; cases h0
    rw [if_neg a6] at h0 ⊢
    by_cases a7 : ((s.runs (btLooked c e)).step (.ready c.i (e.os 1))).2 = false
    · rw [if_pos a7] at h0; cases h0
    rw [if_neg a7] at h0 ⊢
    obtain ⟨g1, u, g2, g3⟩ := btWaitEnd_zero h0
    refine ⟨g1, .inl (by simpa [btAwait] using a6), [.ready c.i (e.os 1)] ++ u, by rw [g2]; simp, ?_⟩
    intro op hop
    rcases List.mem_append.1 hop with h | h
    · exact .inr (.inr ⟨_, List.mem_singleton.1 h⟩)
    · rcases g3 op h with h | h
      · exact .inl h
      · exact .inr (.inl h)

/-- The program is open as a waiter from its `bw_open` to its `bw_close`. -/
theorem bt_waiting {s : BSys} {c : BtCfg} {e : BtEnv} (ho : BtOthers c e)
    (hok : ((s.runs (e.others 0)).step (.openWait c.i c.hi c.pid (e.os 0))).2 = true) {u : List BOp}
    (hu : ∀ op ∈ u, (∃ k, op ∈ e.others k) ∨ (∃ b os, op = .force c.i b os) ∨ (∃ os, op = .ready c.i os)) :
    (s.runs (btLooked c e ++ u)).Waiting c.i c.hi c.pid := by
  obtain ⟨w, hw⟩ := openWait_ok hok
  refine ⟨w, ?_⟩
  rw [runs_append]
  have h1 : (s.runs (btLooked c e)).ts c.i = some (.wait c.hi c.pid w) := by
    unfold btLooked
    rw [runs_append, runs_append]
    exact runs_wait hw fun op hop => (ho 1 op hop).1
  generalize s.runs (btLooked c e) = b at h1
  induction u generalizing b with
  | nil => exact h1
  | cons x xs ih =>
    refine ih (fun op hop => hu op (by simp [hop])) _ ?_
    rcases hu x (by simp) with ⟨k, hk⟩ | ⟨b', os, rfl⟩ | ⟨os, rfl⟩
    · have hx := (ho k x hk).1
      exact step_waiting h1 (by rintro rfl; exact hx rfl) (by rintro rfl; exact hx rfl)
    · exact step_waiting h1 (by simp) (by simp)
    · exact step_waiting h1 (by simp) (by simp)

/-- **C99.** If `wait` exits with status 0 then it was woken: at the moment its wait ended it was a registered waiter with a datagram, and since
it had been registered some other process had called `bw_wake`; unless it waited with `bw_wait_ul` (-w) and that failed. -/
theorem C99_wait_woken {s : BSys} (h : s.KReach) {c : BtCfg} {e : BtEnv} (ho : BtOthers c e) (hf : BtFits c e s)
    (hc : s.CleanRun (btMain c e s .wait).1) (h0 : (btMain c e s .wait).2 = 0) :
    (∃ pre os mid post, (btMain c e s .wait).1 = pre ++ .openWait c.i c.hi c.pid os :: mid ++ post ∧
      (s.runs (pre ++ .openWait c.i c.hi c.pid os :: mid)).Registered c.i c.hi c.pid ∧
      1 ≤ (s.runs (pre ++ .openWait c.i c.hi c.pid os :: mid)).pending c.i ∧ ∃ j os', j ≠ c.i ∧ .wake j os' ∈ mid) ∨
    (c.useApi = true ∧ e.look = .fail) := by
  obtain ⟨g1, g2, g3, u, g4, g5⟩ := btWait_zero h0
  have nosig : e.sig1 = false := by
    cases hs : e.sig1
    · rfl
    · rw [hf.stays hs] at g2; cases g2
  rcases g3 with hl | ⟨ha, hl⟩
  · left
    have hp : 1 ≤ (s.runs (btLooked c e)).pending c.i := by
      rcases hf.wakeup hl with h | ⟨-, h⟩
      · exact h
      · rw [nosig] at h; cases h
    have hL : btLooked c e = e.others 0 ++ .openWait c.i c.hi c.pid (e.os 0) :: e.others 1 := by unfold btLooked; simp
    rw [g4] at hc
    have hc1 := (cleanRun_append.1 (cleanRun_append.1 hc).1).1
    have hinv := h.inv.runs hc1
    have hw := bt_waiting ho g1 (u := []) (fun _ h => by cases h)
    rw [List.append_nil] at hw
    refine ⟨e.others 0, e.os 0, e.others 1, u ++ [.close c.i], by rw [g4, hL]; simp, ?_, ?_, ?_⟩
    · rw [← hL]; exact hinv.registered hw
    · rw [← hL]; exact hp
    · by_cases hex : ∃ j os', BOp.wake j os' ∈ e.others 1
      · obtain ⟨j, os', hj⟩ := hex
        exact ⟨j, os', fun e1 => by subst e1; exact (ho 1 _ hj).2 _ rfl, hj⟩
      · exfalso
        obtain ⟨w, hw1⟩ := openWait_ok g1
        rw [show btLooked c e = (e.others 0 ++ [.openWait c.i c.hi c.pid (e.os 0)]) ++ e.others 1 from rfl] at hc1 hp
        obtain ⟨c1, c2⟩ := cleanRun_append.1 hc1
        have hinv1 := h.inv.runs c1
        have hw2 : (s.runs (e.others 0 ++ [.openWait c.i c.hi c.pid (e.os 0)])).ts c.i = some (.wait c.hi c.pid w) := by
          rw [runs_append]; exact hw1
        have := (runs_pending hinv1 c2 hw2 fun op hop => (ho 1 op hop).1).2.2
          (fun op hop j os e1 => hex ⟨j, os, by rw [← e1]; exact hop⟩)
        rw [runs_append, this, runs_append] at hp
        have h0 := openWait_empty (h.inv.runs (cleanRun_append.1 c1).1) g1
        rw [show ((s.runs (e.others 0)).runs [.openWait c.i c.hi c.pid (e.os 0)]) =
          ((s.runs (e.others 0)).step (.openWait c.i c.hi c.pid (e.os 0))).1 from rfl, h0] at hp
        omega
  · right
    refine ⟨ha, ?_⟩
    cases hl' : e.look with
    | fail => rfl
    | signal => rw [hf.signal hl'] at nosig; cases nosig
    | wakeup => exact absurd hl' hl

/-- **C99.** If `wait` exits with status 0 then its last act was to give up its slot. -/
theorem C99_wait_gives_up {s : BSys} {c : BtCfg} {e : BtEnv} (ho : BtOthers c e) (h0 : (btMain c e s .wait).2 = 0) :
    ∃ pre, (btMain c e s .wait).1 = pre ++ [.close c.i] ∧ (s.runs pre).Waiting c.i c.hi c.pid ∧
      (((s.runs (btMain c e s .wait).1).hd c.hi).wr ((s.runs pre).slotOf c.i)).pid = 0 := by
  obtain ⟨g1, g2, g3, u, g4, g5⟩ := btWait_zero h0
  have hw := bt_waiting ho g1 g5
  refine ⟨_, g4, hw, ?_⟩
  rw [g4, runs_append s (btLooked c e ++ u)]
  exact (C38_close_frees hw).1

/-- **C99.** However a run ends, it takes nothing from others: a waiter of another process that does not itself close or die
is still registered afterwards, in the same slot, and still has every datagram that it has not consumed itself. -/
theorem C99_harmless {s : BSys} (h : s.KReach) {c : BtCfg} {e : BtEnv} {w : BtWord} (hc : s.CleanRun (btMain c e s w).1) {j hi pid : Nat}
    (hw : s.Waiting j hi pid) (hj : j ≠ c.i) (hp : pid ≠ c.pid) (ho : ∀ k, ∀ op ∈ e.others k, op.avoids j pid) :
    (btAfter c e s w).Registered j hi pid ∧ (btAfter c e s w).slotOf j = s.slotOf j ∧ s.pending j ≤ (btAfter c e s w).pending j := by
  have hc2 : s.CleanRun ((btMain c e s w).1 ++ [.exit c.pid]) := cleanRun_append.2 ⟨hc, trivial, trivial⟩
  have hav : ∀ op ∈ (btMain c e s w).1 ++ [.exit c.pid], op.avoids j pid := by
    intro op hop
    rcases List.mem_append.1 hop with h | h
    · rcases btMain_any c e s w op h with ⟨k, hk⟩ | h
      · exact ho k op hk
      · rcases h with ⟨os, rfl⟩ | ⟨os, rfl⟩ | rfl | ⟨os, rfl⟩ | ⟨b, os, rfl⟩ | ⟨os, rfl⟩
        · exact Ne.symm hj
        · exact Ne.symm hj
        · exact Ne.symm hj
        · trivial
        · exact Ne.symm hj
        · exact Ne.symm hj
    · rw [List.mem_singleton.1 h]; exact Ne.symm hp
  obtain ⟨w', hw'⟩ := hw
  obtain ⟨r1, r2, -⟩ := runs_pending h.inv hc2 hw' hav
  refine ⟨(h.inv.runs hc2).registered ⟨w', r1⟩, ?_, r2⟩
  unfold btAfter
  rw [slotOf_eq r1, slotOf_eq hw']

/-- **C99.** However a run ends, nothing of the process is left but slots that do not belong to anybody: it has no `bw_t` and no socket, and
every slot that still has its number can be taken by the next waiter or cleared by the next waker, provided they can find out
that it is dead. -/
theorem C99_leftover {s : BSys} {c : BtCfg} {e : BtEnv} {w : BtWord} :
    (∀ i hi, ¬ (btAfter c e s w).Waiting i hi c.pid) ∧ (∀ name, (btAfter c e s w).kern.held c.pid name = false) ∧
    ∀ hi n os, os.pidKnown n = true → (((btAfter c e s w).hd hi).wr n).pid = c.pid → (btAfter c e s w).Reclaimable hi os n := by
  have hh : ∀ name, (btAfter c e s w).kern.held c.pid name = false := by
    intro name
    unfold btAfter
    rw [runs_append]
    show (Kern.held (Kern.exit _ _) _ _) = false
    unfold Kern.held Kern.exit
    rw [List.any_eq_false]
    intro x hx
    have := (List.mem_filter.1 hx).2
    simp at this ⊢
    exact fun _ => this
  refine ⟨?_, hh, ?_⟩
  · rintro i hi ⟨v, hv⟩
    unfold btAfter at hv
    rw [runs_append] at hv
    generalize s.runs (btMain c e s w).1 = b at hv
    change (b.exit c.pid).ts i = _ at hv
    unfold BSys.exit at hv
    dsimp only at hv
    cases hb : b.ts i with
    | none => rw [hb] at hv; cases hv
    | some t =>
      rw [hb] at hv
      cases t with
      | wake a p x => dsimp only at hv; split at hv <;> cases hv
      | wait a p x =>
        dsimp only at hv
        split at hv
        · cases hv
        · rename_i hne; cases hv; exact hne rfl
  · intro hi n os hk hpid
    exact .inr ⟨hk, by rw [hpid]; exact hh _⟩

theorem bt_none {s : BSys} {c : BtCfg} {e : BtEnv} (ho : BtOthers c e) (hn : s.ts c.i = none) (k : Nat) : (s.runs (e.others k)).ts c.i = none := by
  refine runs_none hn fun op hop p => ?_
  have := (ho k op hop).1
  cases op with
  | exit q => exact .inr ⟨q, rfl⟩
  | _ => exact .inl this

/-- **C99.** `wake` does not fail without reason: if the system calls succeed, it exits with status 0, whatever other processes do and whatever
dead processes have left in the handle. -/
theorem C99_wake_succeeds {s : BSys} {c : BtCfg} {e : BtEnv} (ho : BtOthers c e) (hn : s.ts c.i = none) (hp : c.pid ≠ 0)
    (h1 : e.sigFdOk = true) (h2 : e.mapOk = true) (h3 : ∀ k, e.lockOk k = true) (h4 : ∀ k, e.unlockOk k = true) (h5 : ∀ k, (e.os k).Answers) :
    (btMain c e s .wake).2 = 0 := by
  unfold btMain btWake
  dsimp only
  rw [h1, h2, h3, h3, h4, h4]
  have a2 := (C84_nobody_is_locked_out (s := s.runs (e.others 0)) (h5 0)).2.1 c.i c.hi c.pid (bt_none ho hn 0) hp
  rw [a2]
  obtain ⟨v, hv⟩ := openWake_ok a2
  have hm : ∃ v', (s.runs (e.others 0 ++ [.openWake c.i c.hi c.pid (e.os 0)] ++ e.others 1)).ts c.i = some (.wake c.hi c.pid v') := by
    rw [runs_append, runs_append]
    exact runs_mode hv fun op hop => (ho 1 op hop).1
  obtain ⟨v', hv'⟩ := hm
  have a5 := (C84_nobody_is_locked_out (s := s.runs (e.others 0 ++ [.openWake c.i c.hi c.pid (e.os 0)] ++ e.others 1)) (h5 1)).1 c.i _ _ _ hv'
  rw [a5]
  rfl

/-! ## make -/

/-- The four bytes at offset `o`, little endian. -/
def leInt (f : List Nat) (o : Nat) : Nat := f.getD o 0 + 256 * f.getD (o + 1) 0 + 256 ^ 2 * f.getD (o + 2) 0 + 256 ^ 3 * f.getD (o + 3) 0

theorem ftruncate_length (f : List Nat) (n : Nat) : (ftruncateBytes f n).length = n := by
  unfold ftruncateBytes
  simp
  omega

/-- **C99.** `make` exits with status 0 only if the file is there with exactly the size of a `bw_handle`, 772 bytes; a new file holds
the empty handle: sequence number 0 and no slot taken; of an existing file the first 772 bytes are kept. -/
theorem C99_make {a b t : Bool} {f : Option (List Nat)} (h0 : (btMake a b t f).2 = 0) :
    ∃ g, (btMake a b t f).1 = some g ∧ g.length = 772 ∧
      (f = none → leInt g 0 = 0 ∧ ∀ n < 64, leInt g (4 + 12 * n) = 0) ∧
      (∀ old, f = some old → g.take old.length = old.take 772 ∧ (old.length = 772 → g = old)) := by
  unfold btMake at h0 ⊢
  by_cases h1 : a = false ∨ b = false
  · rw [if_pos h1] at h0; cases h0
  rw [if_neg h1] at h0 ⊢
  by_cases h2 : t = false
  · rw [if_pos h2] at h0; cases h0
  rw [if_neg h2]
  refine ⟨_, rfl, ftruncate_length _ _, ?_, ?_⟩
  · rintro rfl
    have hz : ∀ o, (ftruncateBytes ((none : Option (List Nat)).getD []) sizeofBwHandle).getD o 0 = 0 := by
      intro o
      unfold ftruncateBytes
      simp only [Option.getD_none, List.take_nil, List.nil_append, List.getD_eq_getElem?_getD]
      by_cases h : o < sizeofBwHandle - ([] : List Nat).length
      · rw [List.getElem?_replicate, if_pos h]; rfl
      · rw [List.getElem?_replicate, if_neg h]; rfl
    have hl : ∀ o, leInt (ftruncateBytes ((none : Option (List Nat)).getD []) sizeofBwHandle) o = 0 := by
      intro o; unfold leInt; rw [hz, hz, hz, hz]
    exact ⟨hl _, fun n _ => hl _⟩
  · rintro old rfl
    have e772 : sizeofBwHandle = 772 := rfl
    rw [e772]
    dsimp only [Option.getD_some]
    unfold ftruncateBytes
    constructor
    · by_cases h : old.length ≤ 772
      · rw [List.take_of_length_le h, List.take_append_of_le_length (Nat.le_refl _), List.take_length]
      · rw [show 772 - old.length = 0 by omega, List.replicate_zero, List.append_nil, List.take_take]
        congr 1
        omega
    · intro h
      rw [List.take_of_length_le (by omega), show 772 - old.length = 0 by omega]
      simp

/-- **C99.** `make` that fails leaves a new file empty or absent, and an old one as it is. -/
theorem C99_make_fails {a b t : Bool} {f : Option (List Nat)} (h0 : (btMake a b t f).2 ≠ 0) :
    (btMake a b t f).1 = f ∨ (f = none ∧ (btMake a b t f).1 = some []) := by
  unfold btMake at h0 ⊢
  by_cases h1 : a = false ∨ b = false
  · rw [if_pos h1]; exact .inl rfl
  rw [if_neg h1] at h0 ⊢
  by_cases h2 : t = false
  · rw [if_pos h2]
    cases f
    · exact .inr ⟨rfl, rfl⟩
    · exact .inl rfl
  · rw [if_neg h2] at h0; exact absurd rfl h0

/-- **C99.** A signal that has come before the last look at the signalfd makes `wait` fail. -/
theorem C99_signal_is_error {c : BtCfg} {e : BtEnv} {s : BSys} (hs : e.sig2 = true) : (btMain c e s .wait).2 ≠ 0 := fun h0 => by
  have := (btWait_zero h0).2.1
  rw [hs] at this; cases this

/-- Nothing is claimed of the slot when `wait` fails: a signal while it waits, by select or by `bw_wait_ul`, makes the program end without
`bw_close`; the slot keeps the number of the dead process (C99_leftover says for how long).  With -w the program has code for
this case, lib/bw-tool.c:246-253, but it tests for -2 and `bw_wait_ul` returns -3. -/
theorem C99_counterexample_signal (api : Bool) :
    let c : BtCfg := { i := 5, hi := 0, pid := 50, useApi := api }
    let e : BtEnv := { os := fun _ => pick 100, look := .signal, sig1 := true, sig2 := true }
    BtFits c e {} ∧ BtOthers c e ∧ (btMain c e {} .wait).2 = 255 ∧ (((btAfter c e {} .wait).hd 0).wr 0).pid = 50 := by
  refine ⟨⟨fun h => (by cases h), fun _ => rfl, fun _ => rfl⟩, fun _ _ h => (by cases h), ?_⟩
  cases api <;> decide +kernel

/-- With -w an error of epoll_wait is reported as success: status 0 although nobody woke the program. -/
theorem C99_counterexample_error :
    let c : BtCfg := { i := 5, hi := 0, pid := 50, useApi := true }
    let e : BtEnv := { os := fun _ => pick 100, look := .fail }
    BtFits c e {} ∧ BtOthers c e ∧ (btMain c e {} .wait).2 = 0 ∧ (btMain c e {} .wait).1.length = 2 := by
  refine ⟨⟨fun h => (by cases h), fun h => (by cases h), fun h => (by cases h)⟩, fun _ _ h => (by cases h), ?_⟩
  decide +kernel

/-! ## Concrete cases -/

/-- A waker that others open and use while the program waits. -/
def btDemoOthers : Nat → List BOp
  | 0 => [.openWait 1 0 10 (pick 101)]
  | 1 => [.openWake 2 0 20 {}, .wake 2 {}]
  | _ => []

/-- `wait` and `wake` exit with status 0 in a run in which others wait and wake. -/
example :
    let c : BtCfg := { i := 5, hi := 0, pid := 50, forceReady := true }
    let e : BtEnv := { os := fun _ => pick 100, others := btDemoOthers }
    (btMain c e {} .wait).2 = 0 ∧ (btMain c e {} .wait).1.length = 7 ∧ 1 ≤ (BSys.runs {} (btLooked c e)).pending 5 ∧
    (btMain c e {} .wake).2 = 0 ∧ (btAfter c e {} .wait).slotOf 1 = 0 ∧ (btAfter c e {} .wait).pending 1 = 1 := by decide +kernel

/-- The hypotheses of the theorems hold in it. -/
example :
    let c : BtCfg := { i := 5, hi := 0, pid := 50, forceReady := true }
    let e : BtEnv := { os := fun _ => pick 100, others := btDemoOthers }
    BtFits c e {} ∧ BtOthers c e ∧ BSys.CleanRun {} (btMain c e {} .wait).1 := by
  refine ⟨⟨fun _ => .inl (by decide +kernel), fun h => (by cases h), fun h => (by cases h)⟩, ?_, ?_⟩
  rotate_left
  · rw [show (btMain { i := 5, hi := 0, pid := 50, forceReady := true } { os := fun _ => pick 100, others := btDemoOthers } {} .wait).1 =
      [.openWait 1 0 10 (pick 101), .openWait 5 0 50 (pick 100), .openWake 2 0 20 {}, .wake 2 {}, .ready 5 (pick 100),
        .force 5 true (pick 100), .close 5] from by
        unfold btMain btWait
        have h1 : ((BSys.runs {} (btDemoOthers 0)).step (.openWait 5 0 50 (pick 100))).2 = true := by decide +kernel
        have h2 : ((BSys.runs {} (btLooked { i := 5, hi := 0, pid := 50, forceReady := true }
          { os := fun _ => pick 100, others := btDemoOthers })).step (.ready 5 (pick 100))).2 = true := by decide +kernel
        dsimp only
        rw [h1, h2]
        rfl]
    refine ⟨fun j hi pid w n _ h => (by cases h), ?_, trivial, fun n h => (by cases h), trivial, trivial, trivial, trivial⟩
    intro j hi pid w n _ h
    exfalso
    by_cases hj : j = 1
    · subst hj
      obtain ⟨w', hw'⟩ := openWait_ok (b := {}) (i := 1) (hi := 0) (p := 10) (os := pick 101) (by decide +kernel)
      rw [hw'] at h; cases h
    · rw [openWait_ts_step hj] at h; cases h
  intro k op hop
  match k with
  | 0 =>
    have : op = .openWait 1 0 10 (pick 101) := by simpa [btDemoOthers] using hop
    subst this
    exact ⟨by show (1 : Nat) ≠ 5; decide, fun _ h => (by cases h)⟩
  | 1 =>
    have : op = .openWake 2 0 20 {} ∨ op = .wake 2 {} := by simpa [btDemoOthers] using hop
    rcases this with rfl | rfl
    · exact ⟨by show (2 : Nat) ≠ 5; decide, fun _ h => (by cases h)⟩
    · exact ⟨trivial, fun _ h => by injection h with h1; exact absurd h1 (by decide)⟩
  | k + 2 => cases hop

example : (btMake true true true none).2 = 0 ∧ ((btMake true true true (some [1, 2])).1.getD []).take 3 = [1, 2, 0] ∧
    (btMake true true false none).1 = some [] := by decide

end Shr
