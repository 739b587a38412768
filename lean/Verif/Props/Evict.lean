import Verif.Props.Room
import Verif.Props.BwKill
/-!
# C40, exactly: what can make wakers lose a live waiter

`Props/Bw.lean` shows that clean steps evict nobody, and gives counterexamples for unclean ones.  Here any step may happen, at any time:
names may be reused and sends may fail.  The theorem lists all the ways in which a registered waiter can cease to be registered.
-/
namespace Shr
open BSys

/-- States reachable by any steps at all. -/
inductive BSys.Ever : BSys → Prop
  | init : Ever {}
  | step {s : BSys} (op : BOp) : Ever s → Ever (s.step op).1

/-! ## Handles -/

/-- Slots that are in use changed only if `seqno` did. -/
structure HEvo (h h' : BwH) : Prop where
  le : h.seqno ≤ h'.seqno
  same : h'.seqno = h.seqno → ∀ n, (h'.wr n).pid ≠ 0 → h'.wr n = h.wr n

theorem HEvo.refl (h : BwH) : HEvo h h := ⟨Int.le_refl _, fun _ _ _ => rfl⟩

theorem HEvo.trans {a b c : BwH} (h : HEvo a b) (g : HEvo b c) : HEvo a c := by
  have := h.le; have := g.le
  refine ⟨by omega, fun e n hn => ?_⟩
  have e1 := g.same (by omega) n hn
  rw [e1] at hn ⊢
  exact h.same (by omega) n hn

theorem HEvo.release (h : BwH) (n : Nat) : HEvo h (h.release n) :=
  ⟨by rw [release_seqno]; omega, fun e => by rw [release_seqno] at e; omega⟩

theorem HEvo.prune (k : Kern) (os : Os) (h : BwH) : HEvo h (prune_handle k os h) := by
  unfold prune_handle
  generalize List.range BW_WAITMAX = l
  induction l generalizing h with
  | nil => exact .refl h
  | cons n l ih =>
    refine HEvo.trans ?_ (ih (pruneSlot k os h n))
    unfold pruneSlot
    split
    · exact .refl h
    · split
      · exact .release h n
      · exact .refl h

theorem prune_all_other (k : Kern) (os : Os) (h : BwH) (m : Nat) (hm : ¬ m < BW_WAITMAX) : (prune_handle k os h).wr m = h.wr m := by
  unfold prune_handle
  have hr : ∀ n ∈ List.range BW_WAITMAX, m ≠ n := fun n hn e => hm (by rw [e]; exact List.mem_range.1 hn)
  generalize List.range BW_WAITMAX = l at hr
  induction l generalizing h with
  | nil => rfl
  | cons n l ih =>
    rw [List.foldl_cons, ih _ (fun x hx => hr x (by simp [hx]))]
    unfold pruneSlot
    split
    · rfl
    · split
      · exact release_other h (hr n (by simp))
      · rfl

/-- What a waker knows is not newer than the handle; if it is as new, it knows all slots in use. -/
structure WCur (h : BwH) (w : WakeT) : Prop where
  le : w.seqno ≤ h.seqno
  cur : w.seqno = h.seqno → ∀ n < BW_WAITMAX, Matched h w n

theorem WCur.evo {h h' : BwH} {w : WakeT} (c : WCur h w) (e : HEvo h h') : WCur h' w := by
  have := c.le; have := e.le
  refine ⟨by omega, fun q n hn hp => ?_⟩
  have e1 := e.same (by omega) n hp
  rw [e1] at hp ⊢
  exact c.cur (by omega) n hn hp

/-! ## Synchronising a waker -/

theorem syncSlot_any (k : Kern) (os : Os) (h : BwH) (w : WakeT) (n : Nat) :
    HEvo h (syncSlot k os h w n).1 ∧
    (∀ m, m ≠ n → (syncSlot k os h w n).1.wr m = h.wr m ∧ (syncSlot k os h w n).2.1.fd m = w.fd m ∧
      (syncSlot k os h w n).2.1.name m = w.name m) ∧
    (syncSlot k os h w n).2.1.seqno = w.seqno ∧
    ((syncSlot k os h w n).2.2 = true → Matched (syncSlot k os h w n).1 (syncSlot k os h w n).2.1 n) ∧
    (k.held (h.wr n).pid (h.wr n).name = true → (syncSlot k os h w n).1.wr n = h.wr n) ∧
    ((h.wr n).pid ≠ 0 → ∀ sid, w.fd n = some sid → w.name n = (h.wr n).name → (syncSlot k os h w n).2.1.fd n = some sid) ∧
    ((h.wr n).pid ≠ 0 → ∀ sid, (syncSlot k os h w n).2.1.fd n = some sid →
      (w.fd n = some sid ∧ w.name n = (h.wr n).name) ∨ k.isOpen sid = true) := by
  unfold syncSlot
  dsimp only
  -- the waker after the first test
  have key : ∀ w1 : WakeT, w1 = (if w.fd n ≠ none ∧ ((h.wr n).pid = 0 ∨ (h.wr n).name ≠ w.name n) then { w with fd := upd w.fd n none } else w) →
      (∀ m, m ≠ n → w1.fd m = w.fd m) ∧ w1.name = w.name ∧ w1.seqno = w.seqno ∧
      ((h.wr n).pid ≠ 0 → ∀ sid, w1.fd n = some sid ↔ w.fd n = some sid ∧ w.name n = (h.wr n).name) := by
    intro w1 e
    by_cases hc : w.fd n ≠ none ∧ ((h.wr n).pid = 0 ∨ (h.wr n).name ≠ w.name n)
    · rw [if_pos hc] at e
      subst e
      refine ⟨fun m hm => upd_other _ _ hm, rfl, rfl, fun hp sid => ?_⟩
      dsimp only
      rw [upd_same]
      rcases hc.2 with h0 | h0
      · exact absurd h0 hp
      · exact ⟨fun e => (by cases e), fun e => absurd e.2.symm h0⟩
    · rw [if_neg hc] at e
      subst e
      refine ⟨fun m hm => rfl, rfl, rfl, fun hp sid => ⟨fun e => ⟨e, ?_⟩, fun e => e.1⟩⟩
      by_cases h0 : (h.wr n).name = w1.name n
      · exact h0.symm
      · exact absurd ⟨by rw [e]; simp, .inr h0⟩ hc
  generalize (if w.fd n ≠ none ∧ ((h.wr n).pid = 0 ∨ (h.wr n).name ≠ w.name n) then { w with fd := upd w.fd n none } else w) = w1 at key
  obtain ⟨k1, k2, k3, k4⟩ := key w1 rfl
  by_cases hc : (h.wr n).pid ≠ 0 ∧ w1.fd n = none
  · rw [if_pos hc]
    unfold open_socket
    by_cases ho : os.sockOk n = false
    · rw [if_pos ho]
      refine ⟨.refl h, fun m hm => ⟨rfl, k1 m hm, ?_⟩, k3, fun e => (by cases e), fun _ => rfl, ?_, ?_⟩
      · dsimp only; rw [upd_other _ _ hm, k2]
      · intro hp sid e1 e2; exact (k4 hp sid).2 ⟨e1, e2⟩
      · intro hp sid e; exact .inl ((k4 hp sid).1 e)
    rw [if_neg ho]
    dsimp only
    cases ec : connect k (upd w1.name n (h.wr n).name n) (os.connOk n) with
    | some sid =>
      rw [upd_same] at ec
      dsimp only
      refine ⟨.refl h, fun m hm => ⟨rfl, ?_, ?_⟩, k3, ?_, fun _ => rfl, ?_, ?_⟩
      · rw [upd_other _ _ hm, k1 m hm]
      · rw [upd_other _ _ hm, k2]
      · intro _ hp
        exact ⟨⟨sid, upd_same _ _ _⟩, upd_same _ _ _⟩
      · intro hp sid' e1 e2
        have := (k4 hp sid').2 ⟨e1, e2⟩
        rw [hc.2] at this; cases this
      · intro hp sid' e1
        rw [upd_same] at e1
        cases e1
        right
        unfold connect at ec
        split at ec
        · obtain ⟨x, hx, f1, f2⟩ := lookup_some ec
          exact isOpen_iff.2 ⟨x, hx, f2⟩
        · cases ec
    | none =>
      dsimp only
      by_cases hz : has_pid_socket k (h.wr n).pid (upd w1.name n (h.wr n).name n) (os.pidKnown' n) = 0
      · rw [if_pos hz]
        rw [upd_same] at hz
        refine ⟨.release h n, fun m hm => ⟨release_other h hm, k1 m hm, ?_⟩, k3, ?_, ?_, ?_, ?_⟩
        · dsimp only; rw [upd_other _ _ hm, k2]
        · intro _ hp; exact absurd (release_pid h n) hp
        · intro hh; rw [has_pid_zero hz] at hh; cases hh
        · intro hp sid e1 e2; exact (k4 hp sid).2 ⟨e1, e2⟩
        · intro hp sid e; exact .inl ((k4 hp sid).1 e)
      · rw [if_neg hz]
        refine ⟨.refl h, fun m hm => ⟨rfl, k1 m hm, ?_⟩, k3, fun e => (by cases e), fun _ => rfl, ?_, ?_⟩
        · dsimp only; rw [upd_other _ _ hm, k2]
        · intro hp sid e1 e2; exact (k4 hp sid).2 ⟨e1, e2⟩
        · intro hp sid e; exact .inl ((k4 hp sid).1 e)
  · rw [if_neg hc]
    refine ⟨.refl h, fun m hm => ⟨rfl, k1 m hm, by rw [k2]⟩, k3, ?_, fun _ => rfl, ?_, ?_⟩
    · intro _ hp
      cases e : w1.fd n with
      | none => exact absurd ⟨hp, e⟩ hc
      | some sid => exact ⟨⟨sid, rfl⟩, by rw [k2]; exact ((k4 hp sid).1 e).2⟩
    · intro hp sid e1 e2; exact (k4 hp sid).2 ⟨e1, e2⟩
    · intro hp sid e; exact .inl ((k4 hp sid).1 e)

theorem syncLoop_any (k : Kern) (os : Os) : ∀ (ns : List Nat), ns.Nodup → ∀ (h : BwH) (w : WakeT),
    HEvo h (syncLoop k os ns h w).1 ∧
    (∀ m, m ∉ ns → (syncLoop k os ns h w).1.wr m = h.wr m ∧ (syncLoop k os ns h w).2.1.fd m = w.fd m ∧
      (syncLoop k os ns h w).2.1.name m = w.name m) ∧
    (syncLoop k os ns h w).2.1.seqno = w.seqno ∧
    ((syncLoop k os ns h w).2.2 = true → ∀ n ∈ ns, Matched (syncLoop k os ns h w).1 (syncLoop k os ns h w).2.1 n) ∧
    (∀ n, k.held (h.wr n).pid (h.wr n).name = true → (syncLoop k os ns h w).1.wr n = h.wr n) ∧
    (∀ n, (h.wr n).pid ≠ 0 → ∀ sid, w.fd n = some sid → w.name n = (h.wr n).name → (syncLoop k os ns h w).2.1.fd n = some sid) ∧
    (∀ n ∈ ns, (h.wr n).pid ≠ 0 → ∀ sid, (syncLoop k os ns h w).2.1.fd n = some sid → (syncLoop k os ns h w).2.2 = true →
      (w.fd n = some sid ∧ w.name n = (h.wr n).name) ∨ k.isOpen sid = true) := by
  intro ns
  induction ns with
  | nil =>
    intro _ h w
    exact ⟨.refl h, fun _ _ => ⟨rfl, rfl, rfl⟩, rfl, fun _ n hn => (by cases hn), fun _ _ => rfl, fun n _ sid e _ => e, fun n hn => (by cases hn)⟩
  | cons n ns ih =>
    intro hnd h w
    obtain ⟨hn, hnd'⟩ := List.nodup_cons.1 hnd
    obtain ⟨s1, s2, s3, s4, s5, s6, s7⟩ := syncSlot_any k os h w n
    unfold syncLoop
    generalize syncSlot k os h w n = z at s1 s2 s3 s4 s5 s6 s7
    obtain ⟨h1, w1, ok⟩ := z
    dsimp only at s1 s2 s3 s4 s5 s6 s7
    have c5 : ∀ m, k.held (h.wr m).pid (h.wr m).name = true → h1.wr m = h.wr m := by
      intro m hm
      by_cases e : m = n
      · subst e; exact s5 hm
      · exact (s2 m e).1
    have c6 : ∀ m, (h.wr m).pid ≠ 0 → ∀ sid, w.fd m = some sid → w.name m = (h.wr m).name → w1.fd m = some sid := by
      intro m hp sid e1 e2
      by_cases e : m = n
      · subst e; exact s6 hp sid e1 e2
      · rw [(s2 m e).2.1]; exact e1
    cases ok with
    | false =>
      dsimp only
      exact ⟨s1, fun m hm => s2 m (fun e => hm (by rw [e]; simp)), s3, fun e => (by cases e), c5, c6, fun m hm hp sid e1 e2 => (by cases e2)⟩
    | true =>
      dsimp only
      obtain ⟨t1, t2, t3, t4, t5, t6, t7⟩ := ih hnd' h1 w1
      generalize syncLoop k os ns h1 w1 = y at t1 t2 t3 t4 t5 t6 t7
      obtain ⟨h2, w2, ok2⟩ := y
      dsimp only at t1 t2 t3 t4 t5 t6 t7 ⊢
      refine ⟨s1.trans t1, ?_, t3.trans s3, ?_, ?_, ?_, ?_⟩
      · intro m hm
        simp only [List.mem_cons, not_or] at hm
        obtain ⟨e1, e2, e3⟩ := s2 m hm.1
        obtain ⟨f1, f2, f3⟩ := t2 m hm.2
        exact ⟨f1.trans e1, f2.trans e2, f3.trans e3⟩
      · intro e m hm
        rcases List.mem_cons.1 hm with rfl | hm
        · obtain ⟨f1, f2, f3⟩ := t2 m hn
          have := s4 rfl
          unfold Matched at this ⊢
          rw [f1, f2, f3]; exact this
        · exact t4 e m hm
      · intro m hm
        have e := c5 m hm
        exact (t5 m (by rw [e]; exact hm)).trans e
      · intro m hp sid e1 e2
        by_cases e : m = n
        · subst e
          rw [(t2 m hn).2.1]
          exact s6 hp sid e1 e2
        · obtain ⟨f1, f2, f3⟩ := s2 m e
          exact t6 m (by rw [f1]; exact hp) sid (by rw [f2]; exact e1) (by rw [f3, f1]; exact e2)
      · intro m hm hp sid e1 e2
        by_cases e : m = n
        · subst e
          rw [(t2 m hn).2.1] at e1
          exact s7 hp sid e1
        · obtain ⟨f1, f2, f3⟩ := s2 m e
          have hm' : m ∈ ns := by simpa [e] using hm
          have := t7 m hm' (by rw [f1]; exact hp) sid e1 e2
          rw [f1, f2, f3] at this
          exact this

theorem bw_sync_any (k : Kern) (os : Os) {h : BwH} {w : WakeT} (c : WCur h w) :
    HEvo h (bw_sync k os h w).1 ∧ WCur (bw_sync k os h w).1 (bw_sync k os h w).2.1 ∧
    ((bw_sync k os h w).2.2 = true → ∀ n < BW_WAITMAX, Matched (bw_sync k os h w).1 (bw_sync k os h w).2.1 n) ∧
    (∀ n, k.held (h.wr n).pid (h.wr n).name = true → (bw_sync k os h w).1.wr n = h.wr n) ∧
    (∀ n, (h.wr n).pid ≠ 0 → ∀ sid, w.fd n = some sid → w.name n = (h.wr n).name → (bw_sync k os h w).2.1.fd n = some sid) ∧
    (∀ n < BW_WAITMAX, (h.wr n).pid ≠ 0 → ∀ sid, (bw_sync k os h w).2.1.fd n = some sid → (bw_sync k os h w).2.2 = true →
      (w.fd n = some sid ∧ w.name n = (h.wr n).name) ∨ k.isOpen sid = true) := by
  unfold bw_sync
  by_cases e : w.seqno = h.seqno
  · rw [if_pos e]
    exact ⟨.refl h, c, fun _ => c.cur e, fun _ _ => rfl, fun n _ sid e1 _ => e1, fun n hn hp sid e1 _ => .inl ⟨e1, (c.cur e n hn hp).2⟩⟩
  rw [if_neg e]
  obtain ⟨s1, -, s3, s4, s5, s6, s7⟩ := syncLoop_any k os _ range_nodup h w
  have hr : ∀ n, n < BW_WAITMAX → n ∈ List.range BW_WAITMAX := fun n hn => List.mem_range.2 hn
  generalize List.range BW_WAITMAX = l at *
  generalize syncLoop k os l h w = z at s1 s3 s4 s5 s6 s7
  obtain ⟨h1, w1, ok⟩ := z
  dsimp only at s1 s3 s4 s5 s6 s7
  have := c.le; have := s1.le
  cases ok with
  | false =>
    refine ⟨s1, ⟨?_, ?_⟩, fun e => (by cases e), s5, s6, fun n hn hp sid e1 e2 => (by cases e2)⟩
    · show w1.seqno ≤ h1.seqno; omega
    · intro e2
      have e2 : w1.seqno = h1.seqno := e2
      omega
  | true =>
    refine ⟨s1, ⟨Int.le_refl _, fun _ n hn => s4 rfl n (hr n hn)⟩, fun _ n hn => s4 rfl n (hr n hn), s5, s6, fun n hn => s7 n (hr n hn)⟩

/-! ## Waking -/

/-- A send fails if the system says so, and if the peer is closed. -/
def SendFails (k : Kern) (os : Os) (n sid : Nat) : Prop := os.send n = .fail ∨ k.isOpen sid = false

theorem sendmsg_any (k : Kern) (sid : Nat) (os : Os) (n : Nat) :
    SameIds k (sendmsg k sid (os.send n)).1 ∧ ((sendmsg k sid (os.send n)).2 = .fail ↔ SendFails k os n sid) := by
  unfold sendmsg SendFails
  cases ho : k.isOpen sid with
  | false => simp [SameIds.refl]
  | true =>
    rw [if_pos rfl]
    cases os.send n with
    | fail => simp [SameIds.refl]
    | sent => simp [onQ_ids]
    | again =>
      dsimp only
      split
      · simp [onQ_ids]
      · simp [SameIds.refl]

theorem wakeSlot_any (os : Os) (k : Kern) (h : BwH) (w : WakeT) (n : Nat) :
    SameIds k (wakeSlot os (k, h, w) n).1 ∧ HEvo h (wakeSlot os (k, h, w) n).2.1 ∧
    (∀ m, m ≠ n → (wakeSlot os (k, h, w) n).2.1.wr m = h.wr m ∧ (wakeSlot os (k, h, w) n).2.2.fd m = w.fd m) ∧
    (wakeSlot os (k, h, w) n).2.2.seqno = w.seqno ∧
    ((wakeSlot os (k, h, w) n).2.1.seqno = h.seqno → (wakeSlot os (k, h, w) n).2 = (h, w)) ∧
    (∀ sid, w.fd n = some sid → SendFails k os n sid → ((wakeSlot os (k, h, w) n).2.1.wr n).pid = 0) ∧
    ((∀ sid, w.fd n = some sid → ¬ SendFails k os n sid) → (wakeSlot os (k, h, w) n).2.1.wr n = h.wr n) := by
  unfold wakeSlot
  dsimp only
  cases ef : w.fd n with
  | none => exact ⟨.refl k, .refl h, fun _ _ => ⟨rfl, rfl⟩, rfl, fun _ => rfl, fun sid e => (by cases e), fun _ => rfl⟩
  | some sid =>
    dsimp only
    obtain ⟨m1, m2⟩ := sendmsg_any k sid os n
    generalize sendmsg k sid (os.send n) = z at m1 m2
    obtain ⟨k1, r⟩ := z
    dsimp only at m1 m2
    cases r with
    | fail =>
      dsimp only
      refine ⟨m1, .release h n, fun m hm => ⟨release_other h hm, upd_other _ _ hm⟩, rfl, ?_, fun _ _ _ => release_pid h n, ?_⟩
      · intro e; rw [release_seqno] at e; omega
      · intro hn; exact absurd (m2.1 rfl) (hn sid rfl)
    | sent =>
      refine ⟨m1, .refl h, fun _ _ => ⟨rfl, rfl⟩, rfl, fun _ => rfl, ?_, fun _ => rfl⟩
      intro s e hf; cases e; cases m2.2 hf
    | again =>
      refine ⟨m1, .refl h, fun _ _ => ⟨rfl, rfl⟩, rfl, fun _ => rfl, ?_, fun _ => rfl⟩
      intro s e hf; cases e; cases m2.2 hf

theorem SendFails.same {k k' : Kern} (s : SameIds k k') (os : Os) (n sid : Nat) : SendFails k' os n sid ↔ SendFails k os n sid := by
  unfold SendFails; rw [s.isOpen]

theorem wakeLoop_any (os : Os) : ∀ (ns : List Nat), ns.Nodup → ∀ (k : Kern) (h : BwH) (w : WakeT) (x), ns.foldl (wakeSlot os) (k, h, w) = x →
    SameIds k x.1 ∧ HEvo h x.2.1 ∧ (∀ m, m ∉ ns → x.2.1.wr m = h.wr m) ∧ x.2.2.seqno = w.seqno ∧
    (x.2.1.seqno = h.seqno → x.2 = (h, w)) ∧
    (∀ n ∈ ns, ∀ sid, w.fd n = some sid → SendFails k os n sid → (x.2.1.wr n).pid = 0) ∧
    (∀ n ∈ ns, (∀ sid, w.fd n = some sid → ¬ SendFails k os n sid) → x.2.1.wr n = h.wr n) := by
  intro ns
  induction ns with
  | nil =>
    rintro _ k h w _ rfl
    exact ⟨.refl k, .refl h, fun _ _ => rfl, rfl, fun _ => rfl, fun n hn => (by cases hn), fun n hn => (by cases hn)⟩
  | cons n ns ih =>
    intro hnd k h w x e
    obtain ⟨hn, hnd'⟩ := List.nodup_cons.1 hnd
    obtain ⟨s1, s2, s3, s4, s5, s6, s7⟩ := wakeSlot_any os k h w n
    rw [List.foldl_cons] at e
    generalize wakeSlot os (k, h, w) n = z at s1 s2 s3 s4 s5 s6 s7 e
    obtain ⟨k1, h1, w1⟩ := z
    dsimp only at s1 s2 s3 s4 s5 s6 s7
    obtain ⟨t1, t2, t3, t4, t5, t6, t7⟩ := ih hnd' k1 h1 w1 x e
    refine ⟨s1.trans t1, s2.trans t2, ?_, t4.trans s4, ?_, ?_, ?_⟩
    · intro m hm
      simp only [List.mem_cons, not_or] at hm
      exact (t3 m hm.2).trans (s3 m hm.1).1
    · intro e2
      have := s2.le; have := t2.le
      have f := t5 (by omega)
      have g := s5 (by omega)
      rw [f]; exact g
    · intro m hm sid e1 e2
      by_cases em : m = n
      · subst em; rw [t3 m hn]; exact s6 sid e1 e2
      · exact t6 m (by simpa [em] using hm) sid (by rw [(s3 m em).2]; exact e1) ((SendFails.same s1 _ _ _).2 e2)
    · intro m hm hs
      by_cases em : m = n
      · subst em; rw [t3 m hn]; exact s7 hs
      · rw [t7 m (by simpa [em] using hm) (fun sid e1 => by rw [(s3 m em).2] at e1; rw [SendFails.same s1]; exact hs sid e1)]
        exact (s3 m em).1

/-- The slot `n` of the handle is released by `bw_wake`: the send fails, or the waker has from before a connection to a closed
socket whose name is the one that the slot has now. -/
def Loses (k : Kern) (os : Os) (h : BwH) (w : WakeT) (n : Nat) : Prop :=
  os.send n = .fail ∨ ∃ sid, w.fd n = some sid ∧ w.name n = (h.wr n).name ∧ k.isOpen sid = false

theorem bw_wake_any (k : Kern) (os : Os) {h : BwH} {w : WakeT} (c : WCur h w) (x) (e : bw_wake k os h w = x) :
    SameIds k x.1 ∧ HEvo h x.2.1 ∧ WCur x.2.1 x.2.2.1 ∧
    ∀ n < BW_WAITMAX, (h.wr n).pid ≠ 0 → k.held (h.wr n).pid (h.wr n).name = true →
      ((x.2.2.2 = true ∧ Loses k os h w n → (x.2.1.wr n).pid = 0) ∧ (¬ (x.2.2.2 = true ∧ Loses k os h w n) → x.2.1.wr n = h.wr n)) := by
  obtain ⟨s1, s2, s3, s4, s5, s6⟩ := bw_sync_any k os c
  unfold bw_wake at e
  generalize bw_sync k os h w = z at s1 s2 s3 s4 s5 s6 e
  obtain ⟨h1, w1, ok⟩ := z
  dsimp only at s1 s2 s3 s4 s5 s6
  cases ok with
  | false =>
    dsimp only at e
    subst e
    refine ⟨.refl k, s1, s2, fun n hn hp hh => ?_⟩
    exact ⟨fun e => (by cases e.1), fun _ => s4 n hh⟩
  | true =>
    dsimp only at e
    obtain ⟨t1, t2, -, t4, t5, t6, t7⟩ := wakeLoop_any os _ range_nodup k h1 w1 _ rfl
    have hr : ∀ n, n < BW_WAITMAX → n ∈ List.range BW_WAITMAX := fun n hn => List.mem_range.2 hn
    generalize List.range BW_WAITMAX = l at *
    generalize l.foldl (wakeSlot os) (k, h1, w1) = y at t1 t2 t4 t5 t6 t7 e
    subst e
    dsimp only
    refine ⟨t1, s1.trans t2, ?_, fun n hn hp hh => ?_⟩
    · refine ⟨by have := s2.le; have := t2.le; omega, fun e => ?_⟩
      have := s2.le; have := t2.le
      have f := t5 (by omega)
      have f1 : y.2.1 = h1 := by rw [f]
      have f2 : y.2.2 = w1 := by rw [f]
      rw [f1, f2] at e ⊢
      exact s2.cur e
    · have e1 := s4 n hh
      have m := s3 rfl n hn (by rw [e1]; exact hp)
      obtain ⟨⟨sid, ef⟩, em⟩ := m
      constructor
      · intro hl
        refine t6 n (hr n hn) sid ef ?_
        rcases hl.2 with h0 | ⟨sid', g1, g2, g3⟩
        · exact .inl h0
        · have := s5 n hp sid' g1 g2
          rw [ef] at this; cases this
          exact .inr g3
      · intro hl
        rw [← e1]
        apply t7 n (hr n hn)
        intro sid' ef' hf
        apply hl
        refine ⟨rfl, ?_⟩
        rcases hf with h0 | h0
        · exact .inl h0
        · right
          rcases s6 n hn hp sid' ef' rfl with g | g
          · exact ⟨sid', g.1, g.2, h0⟩
          · rw [h0] at g; cases g

/-! ## All users, any steps -/

/-- What holds whatever happens. -/
structure EInv (s : BSys) : Prop where
  k : KInv s.kern
  seq : ∀ hi, 0 ≤ (s.hd hi).seqno
  wakers : ∀ i hi pid w, s.ts i = some (.wake hi pid w) → WCur (s.hd hi) w
  own : ∀ i hi pid w, s.ts i = some (.wait hi pid w) → w.slotno < BW_WAITMAX ∧ ∃ x ∈ s.kern.socks, x.sid = w.sid ∧ x.pid = pid
  dist : ∀ i j hi pid w hi' pid' w', s.ts i = some (.wait hi pid w) → s.ts j = some (.wait hi' pid' w') → w.sid = w'.sid → i = j

/-- One handle and the queues change. -/
theorem EInv.evolve {s : BSys} (e : EInv s) (a : Nat) {k' : Kern} {h' : BwH} (hk : SameIds s.kern k') (hh : HEvo (s.hd a) h') :
    EInv ⟨k', upd s.hd a h', s.ts⟩ := by
  have hstep : ∀ b, HEvo (s.hd b) (upd s.hd a h' b) := by
    intro b; unfold upd; split
    · rename_i e; subst e; exact hh
    · exact .refl _
  refine ⟨e.k.same hk, fun b => Int.le_trans (e.seq b) (hstep b).le, fun i b p w ew => (e.wakers i b p w ew).evo (hstep b), ?_, e.dist⟩
  intro i b p w ew
  obtain ⟨h1, x, hx, h2, h3⟩ := e.own i b p w ew
  obtain ⟨y, hy, f1, f2, f3⟩ := hk.mem hx
  exact ⟨h1, y, hy, f1.trans h2, f3.trans h3⟩

theorem EInv.set_waker {s : BSys} (e : EInv s) (i a pid : Nat) {w : WakeT} (h : WCur (s.hd a) w) :
    EInv ⟨s.kern, s.hd, upd s.ts i (some (.wake a pid w))⟩ := by
  have hother : ∀ j b p v, upd s.ts i (some (.wake a pid w)) j = some (.wait b p v) → s.ts j = some (.wait b p v) := by
    intro j b p v e; unfold upd at e; split at e
    · cases e
    · exact e
  refine ⟨e.k, e.seq, ?_, fun j b p v q => e.own j b p v (hother _ _ _ _ q), ?_⟩
  · intro j b p v q
    dsimp only at q
    unfold upd at q; split at q
    · cases q; exact h
    · exact e.wakers j b p v q
  · intro j1 j2 b p v b' p' v' e1 e2
    exact e.dist j1 j2 b p v b' p' v' (hother _ _ _ _ e1) (hother _ _ _ _ e2)

/-- Sockets and handles of others go away. -/
theorem EInv.remove {s : BSys} (e : EInv s) {ts : Nat → Option BwT} {hd : Nat → BwH} {f : Sock → Bool} (hh : ∀ b, HEvo (s.hd b) (hd b))
    (hs : ∀ j t, ts j = some t → s.ts j = some t)
    (hf : ∀ i hi pid w, ts i = some (.wait hi pid w) → ∀ x ∈ s.kern.socks, x.sid = w.sid → x.pid = pid → f x = true) :
    EInv ⟨{ s.kern with socks := s.kern.socks.filter f }, hd, ts⟩ := by
  refine ⟨e.k.filter f, fun b => Int.le_trans (e.seq b) (hh b).le, fun i b p w q => (e.wakers i b p w (hs _ _ q)).evo (hh b), ?_, ?_⟩
  · intro i b p w q
    obtain ⟨h1, x, hx, h2, h3⟩ := e.own i b p w (hs _ _ q)
    exact ⟨h1, x, List.mem_filter.2 ⟨hx, hf i b p w q x hx h2 h3⟩, h2, h3⟩
  · intro j1 j2 b p v b' p' v' e1 e2
    exact e.dist j1 j2 b p v b' p' v' (hs _ _ e1) (hs _ _ e2)

theorem exit_ts {s : BSys} {pid i : Nat} {t : BwT} (e : (s.exit pid).ts i = some t) : s.ts i = some t := by
  unfold BSys.exit at e; dsimp only at e
  cases e2 : s.ts i with
  | none => rw [e2] at e; cases e
  | some u => rw [e2] at e; cases u <;> dsimp only at e <;> split at e <;> first | cases e; done | exact e

theorem exit_wait {s : BSys} {pid i b p : Nat} {w : WaitT} (e : (s.exit pid).ts i = some (.wait b p w)) : p ≠ pid := by
  unfold BSys.exit at e; dsimp only at e
  cases e2 : s.ts i with
  | none => rw [e2] at e; cases e
  | some u =>
    rw [e2] at e
    cases u <;> dsimp only at e <;> split at e
    · cases e
    · cases e
    · cases e
    · cases e; assumption

theorem EInv.exit {s : BSys} (e : EInv s) (pid : Nat) : EInv (s.exit pid) := by
  have := e.remove (ts := (s.exit pid).ts) (hd := s.hd) (f := fun x => x.pid != pid) (fun b => .refl _) (fun j t q => exit_ts q) (by
    intro i hi p w q x hx h2 h3
    have := exit_wait q
    simp [h3, this])
  exact this

theorem EInv.close {s : BSys} (e : EInv s) (i : Nat) : EInv (s.close i) := by
  unfold BSys.close
  have hts : ∀ j t, upd s.ts i none j = some t → s.ts j = some t ∧ j ≠ i := by
    intro j t e2; unfold upd at e2; split at e2
    · cases e2
    · rename_i h; exact ⟨e2, h⟩
  cases q : s.ts i with
  | none => exact e
  | some t =>
    cases t with
    | wake a pid w =>
      have := e.remove (ts := upd s.ts i none) (hd := s.hd) (f := fun _ => true) (fun b => .refl _) (fun j t q => (hts j t q).1) (fun _ _ _ _ _ _ _ _ _ => rfl)
      rw [List.filter_eq_self.2 (fun _ _ => rfl)] at this
      exact this
    | wait a pid w =>
      dsimp only [bw_close_wait]
      have := e.remove (ts := upd s.ts i none) (hd := upd s.hd a ((s.hd a).release w.slotno)) (f := fun x => x.sid != w.sid)
        (fun b => by
          unfold upd; split
          · rename_i h; subst h; exact .release _ _
          · exact .refl _)
        (fun j t q => (hts j t q).1) (by
          intro j b p v q2 x hx h2 h3
          obtain ⟨q3, hne⟩ := hts _ _ q2
          have : x.sid ≠ w.sid := by
            rw [h2]; intro e4
            exact hne (e.dist j i b p v a pid w q3 q e4)
          simp [this])
      exact this

theorem WCur.fresh {h : BwH} (h0 : 0 ≤ h.seqno) : WCur h {} :=
  ⟨by show (-1 : Int) ≤ _; omega, fun e => absurd e (by show (-1 : Int) ≠ _; omega)⟩

theorem EInv.openWake {s : BSys} (e : EInv s) (i a pid : Nat) (os : Os) : EInv (s.openWake i a pid os).1 := by
  unfold BSys.openWake bw_open_wake
  by_cases hal : os.allocOk = false
  · rw [if_pos hal]
    exact e.evolve a (.refl _) (.refl _)
  rw [if_neg hal]
  have hp := HEvo.prune s.kern os (s.hd a)
  obtain ⟨s1, s2, -⟩ := bw_sync_any s.kern os (h := prune_handle s.kern os (s.hd a)) (WCur.fresh (Int.le_trans (e.seq a) hp.le))
  generalize bw_sync s.kern os (prune_handle s.kern os (s.hd a)) {} = z at s1 s2
  obtain ⟨h1, w1, ok⟩ := z
  dsimp only at s1 s2
  have e' := e.evolve a (.refl _) (hp.trans s1)
  cases ok with
  | false => exact e'
  | true => exact e'.set_waker i a pid (by dsimp only; rw [upd_same]; exact s2)

theorem EInv.wake {s : BSys} (e : EInv s) (i : Nat) (os : Os) : EInv (s.wake i os).1 := by
  unfold BSys.wake
  cases q : s.ts i with
  | none => exact e
  | some t =>
    cases t with
    | wait _ _ _ => exact e
    | wake a pid w =>
      dsimp only
      obtain ⟨s1, s2, s3, -⟩ := bw_wake_any s.kern os (e.wakers i a pid w q) _ rfl
      generalize bw_wake s.kern os (s.hd a) w = z at s1 s2 s3
      obtain ⟨k1, h1, w1, ok⟩ := z
      dsimp only at s1 s2 s3 ⊢
      exact (e.evolve a s1 s2).set_waker i a pid (by dsimp only; rw [upd_same]; exact s3)

theorem EInv.queues {s : BSys} (e : EInv s) {k' : Kern} (hk : SameIds s.kern k') : EInv ⟨k', s.hd, s.ts⟩ := by
  have := e.evolve 0 hk (.refl (s.hd 0))
  rw [upd_eq_self] at this; exact this

/-- A socket is bound. -/
theorem EInv.bound {s : BSys} (e : EInv s) {pid name : Nat} (hpid : pid ≠ 0) (hname : ∀ x ∈ s.kern.socks, x.name ≠ name) :
    EInv ⟨⟨s.kern.socks ++ [⟨s.kern.next, name, pid, 0⟩], s.kern.next + 1⟩, s.hd, s.ts⟩ := by
  have hmem : ∀ x : Sock, x ∈ s.kern.socks ++ [⟨s.kern.next, name, pid, 0⟩] ↔ x ∈ s.kern.socks ∨ x = ⟨s.kern.next, name, pid, 0⟩ := by
    intro x; simp
  refine ⟨?_, e.seq, e.wakers, ?_, e.dist⟩
  · have hnd : ((s.kern.socks ++ [(⟨s.kern.next, name, pid, 0⟩ : Sock)]).map Sock.sid).Nodup := by
      simp only [List.map_append, List.map_cons, List.map_nil]
      rw [List.nodup_append]
      refine ⟨e.k.nodup, by simp, ?_⟩
      intro x hx y hy
      simp only [List.mem_singleton] at hy
      obtain ⟨z, hz, rfl⟩ := List.mem_map.1 hx
      have := e.k.lt z hz
      omega
    refine ⟨fun x hx y hy e => eq_of_key hnd hx hy e, ?_, ?_, ?_, hnd⟩
    · intro x hx y hy q
      rcases (hmem x).1 hx with hx | rfl <;> rcases (hmem y).1 hy with hy | rfl
      · exact e.k.names x hx y hy q
      · exact absurd q (hname x hx)
      · exact absurd q.symm (hname y hy)
      · rfl
    · intro x hx
      show x.sid < s.kern.next + 1
      rcases (hmem x).1 hx with hx | rfl
      · have := e.k.lt x hx; omega
      · exact Nat.lt_succ_self _
    · intro x hx
      rcases (hmem x).1 hx with hx | rfl
      · exact e.k.pid x hx
      · exact hpid
  · intro i b p w q
    obtain ⟨h1, x, hx, h2, h3⟩ := e.own i b p w q
    exact ⟨h1, x, (hmem x).2 (.inl hx), h2, h3⟩

/-- A waiter appears. -/
theorem EInv.set_waiter {s : BSys} (e : EInv s) (i a pid : Nat) {w : WaitT} (hn : w.slotno < BW_WAITMAX)
    (hx : ∃ x ∈ s.kern.socks, x.sid = w.sid ∧ x.pid = pid)
    (hnew : ∀ j b p v, s.ts j = some (.wait b p v) → v.sid ≠ w.sid) :
    EInv ⟨s.kern, s.hd, upd s.ts i (some (.wait a pid w))⟩ := by
  have hold : ∀ j t, upd s.ts i (some (.wait a pid w)) j = some t → (j = i ∧ t = .wait a pid w) ∨ s.ts j = some t := by
    intro j t q; unfold upd at q; split at q
    · rename_i h; cases q; exact .inl ⟨h, rfl⟩
    · exact .inr q
  refine ⟨e.k, e.seq, ?_, ?_, ?_⟩
  · intro j b p v q
    rcases hold j _ q with ⟨_, h⟩ | h
    · cases h
    · exact e.wakers j b p v h
  · intro j b p v q
    rcases hold j _ q with ⟨_, h⟩ | h
    · cases h; exact ⟨hn, hx⟩
    · exact e.own j b p v h
  · intro j1 j2 b p v b' p' v' e1 e2 e3
    rcases hold j1 _ e1 with ⟨h1, h⟩ | h1 <;> rcases hold j2 _ e2 with ⟨h2, g⟩ | h2
    · rw [h1, h2]
    · cases h; exact absurd e3.symm (hnew _ _ _ _ h2)
    · cases g; exact absurd e3 (hnew _ _ _ _ h1)
    · exact e.dist j1 j2 b p v b' p' v' h1 h2 e3

/-- What `bw_open` for waiting does to the handle and the kernel. -/
theorem EInv.openWait {s : BSys} (e : EInv s) (i a pid : Nat) (hpid : pid ≠ 0) (os : Os) :
    EInv (s.openWait i a pid os).1 ∧
    (∀ n, s.kern.held ((s.hd a).wr n).pid ((s.hd a).wr n).name = true → ((s.openWait i a pid os).1.hd a).wr n = (s.hd a).wr n) ∧
    (∀ b, b ≠ a → (s.openWait i a pid os).1.hd b = s.hd b) ∧
    (∀ x ∈ s.kern.socks, x ∈ (s.openWait i a pid os).1.kern.socks) ∧
    (∀ n, ((s.openWait i a pid os).1.hd a).wr n = (s.hd a).wr n ∨ (((s.openWait i a pid os).1.hd a).wr n).pid = 0 ∨
      (s.openWait i a pid os).1.kern.lookup (((s.openWait i a pid os).1.hd a).wr n).name = some s.kern.next) := by
  unfold BSys.openWait bw_open_wait
  by_cases hal : os.allocOk = false
  · rw [if_pos hal]
    dsimp only
    exact ⟨e.evolve a (.refl _) (.refl _), fun n _ => by rw [upd_same], fun b hb => upd_other _ _ hb, fun x hx => hx, fun n => .inl (by rw [upd_same])⟩
  rw [if_neg hal]
  have hp := HEvo.prune s.kern os (s.hd a)
  have hq : ∀ n, s.kern.held ((s.hd a).wr n).pid ((s.hd a).wr n).name = true → (prune_handle s.kern os (s.hd a)).wr n = (s.hd a).wr n := by
    intro n hn
    by_cases hl : n < BW_WAITMAX
    · exact (prune_step os (P := (· = n)) (h := s.hd a) (by rintro m rfl; exact ⟨hl, hn⟩)).prot n rfl
    · exact (prune_all_other s.kern os (s.hd a) n hl)
  have hsh := sheds_prune s.kern os (s.hd a)
  generalize prune_handle s.kern os (s.hd a) = h at hp hq hsh
  unfold bw_reserve
  cases ef : freeSlot h with
  | none =>
    dsimp only
    exact ⟨e.evolve a (.refl _) hp, fun n hn => by rw [upd_same]; exact hq n hn, fun b hb => upd_other _ _ hb, fun x hx => hx,
        fun n => by rw [upd_same]; exact (hsh n).imp_right .inl⟩
  | some n =>
    obtain ⟨hn, hfree⟩ := freeSlot_some ef
    dsimp only
    unfold make_socket
    by_cases hb : os.bindOk = false
    · rw [if_pos hb]
      dsimp only
      exact ⟨e.evolve a (.refl _) hp, fun n hn => by rw [upd_same]; exact hq n hn, fun b hb => upd_other _ _ hb, fun x hx => hx,
        fun n => by rw [upd_same]; exact (hsh n).imp_right .inl⟩
    rw [if_neg hb]
    cases el : s.kern.lookup os.bindName with
    | some t =>
      simp only [Option.isSome_some, if_true]
      exact ⟨e.evolve a (.refl _) hp, fun n hn => by rw [upd_same]; exact hq n hn, fun b hb => upd_other _ _ hb, fun x hx => hx,
        fun n => by rw [upd_same]; exact (hsh n).imp_right .inl⟩
    | none =>
      simp only [Option.isSome_none, Bool.false_eq_true, if_false]
      have hh : (⟨h.seqno + 1, upd (upd h.wr n { h.wr n with name := os.bindName }) n
          { (upd h.wr n { h.wr n with name := os.bindName }) n with pid := pid }⟩ : BwH) = ⟨h.seqno + 1, upd h.wr n ⟨pid, os.bindName⟩⟩ := by
        congr 1
        funext j
        unfold upd
        by_cases hj : j = n
        · simp [hj]
        · simp [hj]
      rw [hh]
      have eb := e.bound hpid (lookup_none el)
      have lk := lookup_of_mem eb.k (x := ⟨s.kern.next, os.bindName, pid, 0⟩) (by simp)
      dsimp only at lk
      have hne : ∀ m, s.kern.held ((s.hd a).wr m).pid ((s.hd a).wr m).name = true → m ≠ n := by
        rintro m hm rfl
        have := hq m hm
        rw [this] at hfree
        obtain ⟨x, hx, -, g⟩ := held_iff.1 hm
        exact e.k.pid x hx (g.trans hfree)
      have ev : ∀ c, HEvo (s.hd a) ⟨h.seqno + 1, c⟩ := fun c =>
        ⟨by have := hp.le; show _ ≤ h.seqno + 1; omega, fun q => by have := hp.le; have q : h.seqno + 1 = _ := q; omega⟩
      have hclose : ((⟨s.kern.socks ++ [⟨s.kern.next, os.bindName, pid, 0⟩], s.kern.next + 1⟩ : Kern).close s.kern.next).socks = s.kern.socks := by
        unfold Kern.close
        dsimp only
        rw [List.filter_append, List.filter_eq_self.2 (fun x hx => by have := e.k.lt x hx; simp; omega)]
        simp
      have undo : EInv ⟨(⟨s.kern.socks ++ [⟨s.kern.next, os.bindName, pid, 0⟩], s.kern.next + 1⟩ : Kern).close s.kern.next,
          upd s.hd a ⟨h.seqno + 1, upd (upd h.wr n ⟨pid, os.bindName⟩) n { upd h.wr n ⟨pid, os.bindName⟩ n with pid := 0 }⟩, s.ts⟩ := by
        have := (eb.evolve a (.refl _) (ev (upd (upd h.wr n ⟨pid, os.bindName⟩) n { upd h.wr n ⟨pid, os.bindName⟩ n with pid := 0 }))).remove
          (ts := s.ts) (hd := upd s.hd a ⟨h.seqno + 1, upd (upd h.wr n ⟨pid, os.bindName⟩) n { upd h.wr n ⟨pid, os.bindName⟩ n with pid := 0 }⟩)
          (f := fun x => x.sid != s.kern.next) (fun b => .refl _) (fun j t q => q) (by
            intro j b p v q x hx h2 h3
            obtain ⟨-, y, hy, g2, -⟩ := e.own j b p v q
            have := e.k.lt y hy
            simp
            omega)
        exact this
      have hslot : ∀ (c : WSlot) m, s.kern.held ((s.hd a).wr m).pid ((s.hd a).wr m).name = true →
          (upd (upd h.wr n ⟨pid, os.bindName⟩) n c) m = (s.hd a).wr m ∧ upd h.wr n ⟨pid, os.bindName⟩ m = (s.hd a).wr m := by
        intro c m hm
        rw [upd_other _ _ (hne m hm), upd_other _ _ (hne m hm)]
        exact ⟨hq m hm, hq m hm⟩
      have hundo : ∀ m, (upd (upd h.wr n ⟨pid, os.bindName⟩) n { upd h.wr n ⟨pid, os.bindName⟩ n with pid := 0 }) m = (s.hd a).wr m ∨
          ((upd (upd h.wr n ⟨pid, os.bindName⟩) n { upd h.wr n ⟨pid, os.bindName⟩ n with pid := 0 }) m).pid = 0 := by
        intro m
        by_cases em : m = n
        · subst em; rw [upd_same]; exact .inr rfl
        · rw [upd_other _ _ em, upd_other _ _ em]
          exact hsh m
      rw [show ((upd (upd h.wr n { h.wr n with name := os.bindName }) n
          { (upd h.wr n { h.wr n with name := os.bindName }) n with pid := pid }) n).name = os.bindName by
        rw [upd_same]; dsimp only; rw [upd_same]]
      unfold connect
      by_cases hso : os.selfOk = true
      · rw [if_pos hso, lk]
        dsimp only
        by_cases hep : os.epollOk = false
        · rw [if_pos hep]
          unfold bwOpenUndo
          dsimp only
          refine ⟨undo, fun m hm => ?_, fun b hb => upd_other _ _ hb, fun x hx => by rw [hclose]; exact hx, fun m => ?_⟩
          · rw [upd_same]
            exact (hslot _ m hm).1
          · rw [upd_same]
            exact (hundo m).imp_right .inl
        · rw [if_neg hep]
          dsimp only
          refine ⟨?_, fun m hm => ?_, fun b hb => upd_other _ _ hb, fun x hx => by simp [hx], fun m => ?_⟩
          · refine (eb.evolve a (.refl _) (ev _)).set_waiter i a pid hn ⟨⟨s.kern.next, os.bindName, pid, 0⟩, by simp, rfl, rfl⟩ ?_
            intro j b p v q
            obtain ⟨-, y, hy, g2, -⟩ := e.own j b p v q
            have := e.k.lt y hy
            dsimp only
            omega
          · rw [upd_same]
            exact (hslot ⟨0, 0⟩ m hm).2
          · rw [upd_same]
            by_cases em : m = n
            · subst em
              right; right
              dsimp only
              rw [upd_same]
              exact lk
            · dsimp only
              rw [upd_other _ _ em]
              exact (hsh m).imp_right .inl
      · rw [if_neg hso]
        unfold bwOpenUndo
        dsimp only
        refine ⟨undo, fun m hm => ?_, fun b hb => upd_other _ _ hb, fun x hx => by rw [hclose]; exact hx, fun m => ?_⟩
        · rw [upd_same]
          exact (hslot _ m hm).1
        · rw [upd_same]
          exact (hundo m).imp_right .inl

theorem EInv.step {s : BSys} (e : EInv s) (op : BOp) : EInv (s.step op).1 := by
  cases op with
  | openWake i a pid os =>
    unfold BSys.step; dsimp only; split
    · exact e
    · exact e.openWake i a pid os
  | openWait i a pid os =>
    unfold BSys.step; dsimp only; split
    · exact e
    · rename_i h; exact (e.openWait i a pid (fun q => h (.inr q)) os).1
  | close i => exact e.close i
  | wake i os => exact e.wake i os
  | force i b os =>
    unfold BSys.step BSys.force; dsimp only; split
    · exact e.queues (bw_force_ids _ _ _ _)
    · exact e
  | ready i os =>
    unfold BSys.step BSys.ready; dsimp only; split
    · exact e.queues (bw_ready_ids _ _ _)
    · exact e
  | exit pid => exact e.exit pid

theorem EInv.init : EInv {} where
  k := BInv.init.k
  seq := fun _ => Int.le_refl _
  wakers := fun i hi pid w e => (by cases e)
  own := fun i hi pid w e => (by cases e)
  dist := fun i j hi pid w hi' pid' w' e => (by cases e)

theorem BSys.Ever.inv {s : BSys} (h : s.Ever) : EInv s := by
  induction h with
  | init => exact EInv.init
  | step op _ ih => exact ih.step op

/-- What registration means for the kernel. -/
theorem EInv.registered_iff {s : BSys} (e : EInv s) {i hi pid : Nat} {w : WaitT} (ew : s.ts i = some (.wait hi pid w)) :
    s.Registered i hi pid ↔ ((s.hd hi).wr w.slotno).pid = pid ∧ ∃ x ∈ s.kern.socks, x.sid = w.sid ∧ x.name = ((s.hd hi).wr w.slotno).name ∧ x.pid = pid := by
  obtain ⟨h1, y, hy, h2, h3⟩ := e.own i hi pid w ew
  constructor
  · rintro ⟨w', e', g1, g2, g3⟩
    rw [ew] at e'
    cases e'
    obtain ⟨x, hx, f1, f2⟩ := lookup_some g3
    have : x = y := e.k.sids x hx y hy (f2.trans h2.symm)
    exact ⟨g2, x, hx, f2, f1, by rw [this]; exact h3⟩
  · rintro ⟨g1, x, hx, f1, f2, f3⟩
    refine ⟨w, ew, h1, g1, ?_⟩
    rw [← f2, lookup_of_mem e.k hx, f1]

/-- A registered waiter stays registered if its slot and its socket are untouched. -/
theorem EInv.stays {s s' : BSys} (e : EInv s) (e' : EInv s') {i hi pid : Nat} {w : WaitT} (ew : s.ts i = some (.wait hi pid w))
    (ew' : s'.ts i = some (.wait hi pid w)) (hr : s.Registered i hi pid) (hs : (s'.hd hi).wr w.slotno = (s.hd hi).wr w.slotno)
    (hk : ∀ x ∈ s.kern.socks, x.sid = w.sid → ∃ y ∈ s'.kern.socks, y.sid = x.sid ∧ y.name = x.name ∧ y.pid = x.pid) :
    s'.Registered i hi pid := by
  obtain ⟨g1, x, hx, f1, f2, f3⟩ := (e.registered_iff ew).1 hr
  obtain ⟨y, hy, h1, h2, h3⟩ := hk x hx f1
  rw [e'.registered_iff ew', hs]
  exact ⟨g1, y, hy, h1.trans f1, h2.trans f2, h3.trans f3⟩

theorem EInv.gone {s s' : BSys} (e : EInv s) {i hi pid : Nat} {w : WaitT} (ew : s.ts i = some (.wait hi pid w))
    (ew' : s'.ts i = some (.wait hi pid w)) (hz : ((s'.hd hi).wr w.slotno).pid = 0) : ¬ s'.Registered i hi pid := by
  rintro ⟨w', e', g1, g2, g3⟩
  rw [ew'] at e'
  cases e'
  obtain ⟨-, x, hx, -, h3⟩ := e.own i hi pid w ew
  exact e.k.pid x hx (by rw [h3, ← g2, hz])

/-! ## C40 -/

/-- The waker `j` has for slot `n` of handle `hi` a connection to a closed socket, whose name is the one in the slot: the kernel has given
the name of the closed socket to the waiter that uses the slot now. -/
def BSys.StaleAt (s : BSys) (j hi n : Nat) : Prop :=
  ∃ pid w sid, s.ts j = some (.wake hi pid w) ∧ w.fd n = some sid ∧ s.kern.isOpen sid = false ∧ w.name n = ((s.hd hi).wr n).name

/-- `j` is a waker on handle `hi`. -/
def BSys.Waking (s : BSys) (j hi : Nat) : Prop := ∃ pid w, s.ts j = some (.wake hi pid w)

/-- The steps that take the registration away from waiter `i` of handle `hi`:
* it is closed, or its process ends;
* another waiter is closed that has the same slot;
* a waker of the handle completes a wake in which sending to the waiter fails, because the system says so or because the waker's
connection is stale. -/
def BSys.Evicts (s : BSys) (op : BOp) (i hi pid : Nat) : Prop :=
  op = .close i ∨ op = .exit pid ∨
  (∃ j, op = .close j ∧ j ≠ i ∧ (∃ p, s.Waiting j hi p) ∧ s.slotOf j = s.slotOf i) ∨
  (∃ j os, op = .wake j os ∧ s.Waking j hi ∧ (s.step (.wake j os)).2 = true ∧
    (os.send (s.slotOf i) = .fail ∨ s.StaleAt j hi (s.slotOf i)))

theorem EInv.evicted_iff {s : BSys} (e : EInv s) {i hi pid : Nat} (hr : s.Registered i hi pid) (op : BOp) :
    ¬ (s.step op).1.Registered i hi pid ↔ s.Evicts op i hi pid := by
  obtain ⟨w, ew, -⟩ := id hr
  have e' := e.step op
  obtain ⟨g1, x, hx, f1, f2, f3⟩ := (e.registered_iff ew).1 hr
  obtain ⟨hlt, -⟩ := e.own i hi pid w ew
  have hpid : pid ≠ 0 := by rw [← f3]; exact e.k.pid x hx
  have hheld : s.kern.held ((s.hd hi).wr w.slotno).pid ((s.hd hi).wr w.slotno).name = true := held_iff.2 ⟨x, hx, f2, f3.trans g1.symm⟩
  unfold BSys.Evicts
  rw [slotOf_eq ew]
  have keep : ∀ {s' : BSys}, (s.step op).1 = s' → op ≠ .close i → op ≠ .exit pid → (s'.hd hi).wr w.slotno = (s.hd hi).wr w.slotno →
      (∀ x ∈ s.kern.socks, x.sid = w.sid → ∃ y ∈ s'.kern.socks, y.sid = x.sid ∧ y.name = x.name ∧ y.pid = x.pid) → (s.step op).1.Registered i hi pid := by
    intro s' q h1 h2 h3 h4
    have ew' := step_waiting ew h1 h2
    subst q
    exact e.stays e' ew ew' hr h3 h4
  have keepAll : ∀ y ∈ s.kern.socks, y.sid = w.sid → ∃ z ∈ s.kern.socks, z.sid = y.sid ∧ z.name = y.name ∧ z.pid = y.pid :=
    fun y hy _ => ⟨y, hy, rfl, rfl, rfl⟩
  cases op with
  | openWake j a p os =>
    constructor
    · intro hn
      exfalso
      apply hn
      refine keep rfl (by simp) (by simp) ?_ ?_
      · unfold BSys.step; dsimp only; split
        · rfl
        · unfold BSys.openWake bw_open_wake
          by_cases ha : a = hi
          · subst ha
            by_cases hal : os.allocOk = false
            · rw [if_pos hal]; dsimp only; rw [upd_same]
            rw [if_neg hal]
            have hp := HEvo.prune s.kern os (s.hd a)
            have hq := (prune_step os (P := (· = w.slotno)) (h := s.hd a) (by rintro m rfl; exact ⟨hlt, hheld⟩)).prot _ rfl
            obtain ⟨-, -, -, s4, -⟩ := bw_sync_any s.kern os (h := prune_handle s.kern os (s.hd a)) (WCur.fresh (Int.le_trans (e.seq a) hp.le))
            have s4 := s4 w.slotno (by rw [hq]; exact hheld)
            rw [hq] at s4
            generalize bw_sync s.kern os (prune_handle s.kern os (s.hd a)) {} = z at s4
            obtain ⟨h1, w1, ok⟩ := z
            cases ok <;> (dsimp only at s4 ⊢; rw [upd_same]; exact s4)
          · generalize (if os.allocOk = false then (s.hd a, none) else _ : BwH × Option WakeT) = z
            obtain ⟨h1, o⟩ := z
            cases o <;> (dsimp only; rw [upd_other _ _ (fun q => ha q.symm)])
      · unfold BSys.step; dsimp only; split
        · exact keepAll
        · unfold BSys.openWake
          generalize bw_open_wake s.kern os (s.hd a) = z
          obtain ⟨h1, o⟩ := z
          cases o <;> exact keepAll
    · rintro (h | h | ⟨j', h, -⟩ | ⟨j', os', h, -⟩) <;> cases h
  | openWait j a p os =>
    constructor
    · intro hn
      exfalso
      apply hn
      by_cases hg : (s.ts j).isSome = true ∨ p = 0
      · refine keep (s' := s) ?_ (by simp) (by simp) rfl keepAll
        unfold BSys.step; dsimp only; rw [if_pos hg]
      · obtain ⟨-, o2, o3, o4, -⟩ := e.openWait j a p (fun q => hg (.inr q)) os
        refine keep (s' := (s.openWait j a p os).1) ?_ (by simp) (by simp) ?_ (fun y hy _ => ⟨y, o4 y hy, rfl, rfl, rfl⟩)
        · unfold BSys.step; dsimp only; rw [if_neg hg]
        · by_cases ha : hi = a
          · subst ha; exact o2 _ hheld
          · rw [o3 hi ha]
    · rintro (h | h | ⟨j', h, -⟩ | ⟨j', os', h, -⟩) <;> cases h
  | close j =>
    by_cases hj : j = i
    · subst hj
      constructor
      · intro _; exact .inl rfl
      · rintro - ⟨w', q, -⟩
        unfold BSys.step BSys.close at q
        dsimp only at q
        rw [ew] at q
        dsimp only at q
        rw [upd_same] at q
        cases q
    · have hc : (BOp.close j) ≠ .close i := fun q => hj (by injection q)
      have ew' := step_waiting ew hc (by simp)
      constructor
      · intro hn
        right; right; left
        refine ⟨j, rfl, hj, ?_⟩
        by_cases hex : (∃ p, s.Waiting j hi p) ∧ s.slotOf j = w.slotno
        · exact hex
        exfalso
        apply hn
        cases qj : s.ts j with
        | none =>
          refine keep (s' := s) ?_ hc (by simp) rfl keepAll
          unfold BSys.step BSys.close; dsimp only; rw [qj]
        | some t =>
          cases t with
          | wake b p v =>
            refine keep (s' := { s with ts := upd s.ts j none }) ?_ hc (by simp) rfl keepAll
            unfold BSys.step BSys.close; dsimp only; rw [qj]
          | wait b p v =>
            refine keep (s' := ⟨(bw_close_wait s.kern (s.hd b) v).1, upd s.hd b (bw_close_wait s.kern (s.hd b) v).2, upd s.ts j none⟩) ?_ hc (by simp) ?_ ?_
            · unfold BSys.step BSys.close; dsimp only; rw [qj]
            · dsimp only [bw_close_wait]
              by_cases hb : hi = b
              · subst hb
                rw [upd_same]
                apply release_other
                intro q
                exact hex ⟨⟨p, v, qj⟩, by rw [slotOf_eq qj, q]⟩
              · rw [upd_other _ _ hb]
            · intro y hy q
              refine ⟨y, List.mem_filter.2 ⟨hy, ?_⟩, rfl, rfl, rfl⟩
              have : y.sid ≠ v.sid := by
                rw [q]; intro q2
                exact hj (e.dist i j hi pid w b p v ew qj q2).symm
              simp [this]
      · rintro (h | h | ⟨j', h, -, ⟨p, v, qv⟩, hs⟩ | ⟨j', os', h, -⟩)
        · exact absurd h hc
        · cases h
        · cases h
          refine e.gone ew ew' ?_
          rw [slotOf_eq qv] at hs
          unfold BSys.step BSys.close
          dsimp only
          rw [qv]
          dsimp only [bw_close_wait]
          rw [upd_same, ← hs]
          exact release_pid _ _
        · cases h
  | wake j os =>
    have ew' := step_waiting (op := .wake j os) ew (by simp) (by simp)
    constructor
    · intro hn
      right; right; right
      refine ⟨j, os, rfl, ?_⟩
      by_cases hw : s.Waking j hi
      · refine ⟨hw, ?_⟩
        obtain ⟨p, wk, qj⟩ := hw
        obtain ⟨s1, -, -, s4⟩ := bw_wake_any s.kern os (e.wakers j hi p wk qj) _ rfl
        obtain ⟨-, s5⟩ := s4 w.slotno hlt (by rw [g1]; exact hpid) hheld
        by_cases hc : (bw_wake s.kern os (s.hd hi) wk).2.2.2 = true ∧ Loses s.kern os (s.hd hi) wk w.slotno
        · refine ⟨?_, ?_⟩
          · unfold BSys.step BSys.wake
            dsimp only
            rw [qj]
            exact hc.1
          · rcases hc.2 with h0 | ⟨sid, k1, k2, k3⟩
            · exact .inl h0
            · exact .inr ⟨p, wk, sid, qj, k1, k3, k2⟩
        · exfalso
          apply hn
          have s5 := s5 hc
          refine keep rfl (by simp) (by simp) ?_ ?_
          · unfold BSys.step BSys.wake
            dsimp only
            rw [qj]
            dsimp only
            rw [upd_same]
            exact s5
          · unfold BSys.step BSys.wake
            dsimp only
            rw [qj]
            intro y hy _
            exact s1.mem hy
      · exfalso
        apply hn
        cases qj : s.ts j with
        | none =>
          refine keep (s' := s) ?_ (by simp) (by simp) rfl keepAll
          unfold BSys.step BSys.wake; dsimp only; rw [qj]
        | some t =>
          cases t with
          | wait b p v =>
            refine keep (s' := s) ?_ (by simp) (by simp) rfl keepAll
            unfold BSys.step BSys.wake; dsimp only; rw [qj]
          | wake b p v =>
            have hb : hi ≠ b := by rintro rfl; exact hw ⟨p, v, qj⟩
            obtain ⟨s1, -⟩ := bw_wake_any s.kern os (e.wakers j b p v qj) _ rfl
            refine keep rfl (by simp) (by simp) ?_ ?_
            · unfold BSys.step BSys.wake
              dsimp only
              rw [qj]
              dsimp only
              rw [upd_other _ _ hb]
            · unfold BSys.step BSys.wake
              dsimp only
              rw [qj]
              intro y hy _
              exact s1.mem hy
    · rintro (h | h | ⟨j', h, -⟩ | ⟨j', os', h, ⟨p, wk, qj⟩, hok, hl⟩)
      · cases h
      · cases h
      · cases h
      · cases h
        refine e.gone ew ew' ?_
        obtain ⟨-, -, -, s4⟩ := bw_wake_any s.kern os (e.wakers j hi p wk qj) _ rfl
        obtain ⟨s5, -⟩ := s4 w.slotno hlt (by rw [g1]; exact hpid) hheld
        unfold BSys.step BSys.wake at hok ⊢
        dsimp only at hok ⊢
        rw [qj] at hok ⊢
        dsimp only at hok ⊢
        rw [upd_same]
        refine s5 ⟨hok, ?_⟩
        rcases hl with h0 | ⟨p', wk', sid, q', k1, k2, k3⟩
        · exact .inl h0
        · rw [qj] at q'
          cases q'
          exact .inr ⟨sid, k1, k3, k2⟩
  | force j b os =>
    constructor
    · intro hn
      exfalso
      apply hn
      refine keep rfl (by simp) (by simp) ?_ ?_
      · unfold BSys.step BSys.force; dsimp only; split <;> rfl
      · unfold BSys.step BSys.force; dsimp only; split
        · intro y hy _; exact (bw_force_ids _ _ _ _).mem hy
        · exact keepAll
    · rintro (h | h | ⟨j', h, -⟩ | ⟨j', os', h, -⟩) <;> cases h
  | ready j os =>
    constructor
    · intro hn
      exfalso
      apply hn
      refine keep rfl (by simp) (by simp) ?_ ?_
      · unfold BSys.step BSys.ready; dsimp only; split <;> rfl
      · unfold BSys.step BSys.ready; dsimp only; split
        · intro y hy _; exact (bw_ready_ids _ _ _).mem hy
        · exact keepAll
    · rintro (h | h | ⟨j', h, -⟩ | ⟨j', os', h, -⟩) <;> cases h
  | exit p =>
    by_cases hp : p = pid
    · subst hp
      constructor
      · intro _; exact .inr (.inl rfl)
      · rintro - ⟨w', q, -⟩
        exact exit_wait q rfl
    · have hc : (BOp.exit p) ≠ .exit pid := fun q => hp (by injection q)
      constructor
      · intro hn
        exfalso
        apply hn
        refine keep rfl (by simp) hc rfl ?_
        intro y hy q
        have : y = x := e.k.sids y hy x hx (q.trans f1.symm)
        refine ⟨y, List.mem_filter.2 ⟨hy, ?_⟩, rfl, rfl, rfl⟩
        show (y.pid != p) = true
        rw [this, f3]
        exact bne_iff_ne.2 fun q => hp q.symm
      · rintro (h | h | ⟨j', h, -⟩ | ⟨j', os', h, -⟩)
        · cases h
        · exact absurd h hc
        · cases h
        · cases h

/-- **C40, exactly.** After any history whatsoever, a step evicts a registered waiter if and only if it is one of those listed in
`Evicts`.  In particular nothing that another process does to its own waiters and wakers (opening, pruning, connecting), and no death of another
process, evicts it; in clean histories none of the listed steps but the waiter's own close and its process's end can
happen (`C40_never_evicted_partial`). -/
theorem C40_evicted_iff {s : BSys} (h : s.Ever) {i hi pid : Nat} (hr : s.Registered i hi pid) (op : BOp) :
    ¬ (s.step op).1.Registered i hi pid ↔ s.Evicts op i hi pid := h.inv.evicted_iff hr op

/-- **C40.** Two registered waiters never have the same slot, after any history: a waiter whose close evicts another is one that was evicted itself
before (and whose slot was then given to the other). -/
theorem C40_evictor {s : BSys} (h : s.Ever) {i j hi pid pid' : Nat} (hr : s.Registered i hi pid) (hq : s.Registered j hi pid')
    (hs : s.slotOf j = s.slotOf i) : j = i := by
  obtain ⟨w, ew, -⟩ := id hr
  obtain ⟨v, ev, -⟩ := id hq
  rw [slotOf_eq ew, slotOf_eq ev] at hs
  obtain ⟨-, x, hx, f1, f2, -⟩ := (h.inv.registered_iff ew).1 hr
  obtain ⟨-, y, hy, g1, g2, -⟩ := (h.inv.registered_iff ev).1 hq
  have : x = y := h.inv.k.names x hx y hy (by rw [f2, g2, hs])
  exact h.inv.dist j i hi pid' v hi pid w ev ew (by rw [← f1, ← g1, this])

/-- **C40.** Eviction is for good: a waiter that is not registered is not registered after any step; it has to be closed and opened again. -/
theorem C40_evicted_for_good {s : BSys} (h : s.Ever) {i hi pid : Nat} (hw : s.Waiting i hi pid) (hn : ¬ s.Registered i hi pid) (op : BOp) :
    ¬ (s.step op).1.Registered i hi pid := by
  obtain ⟨w, ew⟩ := hw
  have e := h.inv
  have e' := e.step op
  intro hr
  obtain ⟨w', ew', -⟩ := id hr
  have h1 : op ≠ .close i := by
    rintro rfl
    unfold BSys.step BSys.close at ew'
    dsimp only at ew'
    rw [ew] at ew'
    dsimp only at ew'
    rw [upd_same] at ew'
    cases ew'
  have h2 : op ≠ .exit pid := by
    rintro rfl
    exact exit_wait ew' rfl
  have e2 := step_waiting ew h1 h2
  rw [e2] at ew'
  cases ew'
  obtain ⟨g1, x, hx, f1, f2, f3⟩ := (e'.registered_iff e2).1 hr
  obtain ⟨-, y, hy, k1, k3⟩ := e.own i hi pid w ew
  have hpid : pid ≠ 0 := by rw [← k3]; exact e.k.pid y hy
  have hp' : (((s.step op).1.hd hi).wr w.slotno).pid ≠ 0 := by rw [g1]; exact hpid
  -- the socket was there before, under the same name; and the slot is the old one
  have main : ((s.step op).1.hd hi).wr w.slotno = (s.hd hi).wr w.slotno → (∃ z ∈ (s.step op).1.kern.socks, z.sid = y.sid ∧ z.name = y.name ∧ z.pid = y.pid) → False := by
    rintro hs ⟨z, hz, q1, q2, q3⟩
    have : z = x := e'.k.sids z hz x hx (by rw [q1, k1, f1])
    apply hn
    rw [e.registered_iff ew, ← hs]
    exact ⟨g1, y, hy, k1, by rw [← q2, this]; exact f2, k3⟩
  have shed : ∀ (b : Nat) (h' : BwH), Sheds (s.hd b) h' → ((upd s.hd b h' hi).wr w.slotno).pid ≠ 0 →
      (upd s.hd b h' hi).wr w.slotno = (s.hd hi).wr w.slotno := by
    intro b h' hs hp
    by_cases hb : hi = b
    · subst hb
      rw [upd_same] at hp ⊢
      exact (hs _).resolve_right hp
    · rw [upd_other _ _ hb]
  have self : ∀ {k : Kern}, SameIds s.kern k → ∃ z ∈ k.socks, z.sid = y.sid ∧ z.name = y.name ∧ z.pid = y.pid := fun q => q.mem hy
  cases op with
  | openWake j a p os =>
    unfold BSys.step at main hp'
    dsimp only at main hp'
    split at main
    · exact main rfl ⟨y, hy, rfl, rfl, rfl⟩
    · rename_i hg
      rw [if_neg hg] at hp'
      unfold BSys.openWake at main hp'
      have hs := sheds_openWake s.kern os (s.hd a)
      generalize bw_open_wake s.kern os (s.hd a) = z at main hp' hs
      obtain ⟨h1, o⟩ := z
      cases o <;> exact main (shed a h1 hs hp') ⟨y, hy, rfl, rfl, rfl⟩
  | openWait j a p os =>
    by_cases hg : (s.ts j).isSome = true ∨ p = 0
    · have : (s.step (.openWait j a p os)).1 = s := by unfold BSys.step; dsimp only; rw [if_pos hg]
      rw [this] at main
      exact main rfl ⟨y, hy, rfl, rfl, rfl⟩
    · obtain ⟨-, -, o3, o4, o5⟩ := e.openWait j a p (fun q => hg (.inr q)) os
      have this : (s.step (.openWait j a p os)).1 = (s.openWait j a p os).1 := by unfold BSys.step; dsimp only; rw [if_neg hg]
      rw [this] at main hp' e' hx f2
      by_cases ha : hi = a
      · subst ha
        rcases o5 w.slotno with o5 | o5 | o5
        · exact main o5 ⟨y, o4 y hy, rfl, rfl, rfl⟩
        · exact hp' o5
        · rw [← f2, lookup_of_mem e'.k hx, f1, ← k1] at o5
          injection o5 with o5
          have := e.k.lt y hy
          omega
      · exact main (by rw [o3 hi ha]) ⟨y, o4 y hy, rfl, rfl, rfl⟩
  | close j =>
    have hj : j ≠ i := fun q => h1 (by rw [q])
    unfold BSys.step BSys.close at main hp'
    dsimp only at main hp'
    cases qj : s.ts j with
    | none => rw [qj] at main; exact main rfl ⟨y, hy, rfl, rfl, rfl⟩
    | some t =>
      rw [qj] at main hp'
      cases t with
      | wake b p v => exact main rfl ⟨y, hy, rfl, rfl, rfl⟩
      | wait b p v =>
        dsimp only [bw_close_wait] at main hp'
        refine main (shed b _ (sheds_release _ _) hp') ⟨y, List.mem_filter.2 ⟨hy, ?_⟩, rfl, rfl, rfl⟩
        have : y.sid ≠ v.sid := by
          rw [k1]; intro q2
          exact hj (e.dist i j hi pid w b p v ew qj q2).symm
        simp [this]
  | wake j os =>
    unfold BSys.step BSys.wake at main hp'
    dsimp only at main hp'
    cases qj : s.ts j with
    | none => rw [qj] at main; exact main rfl ⟨y, hy, rfl, rfl, rfl⟩
    | some t =>
      rw [qj] at main hp'
      cases t with
      | wait b p v => exact main rfl ⟨y, hy, rfl, rfl, rfl⟩
      | wake b p v =>
        obtain ⟨s1, -⟩ := bw_wake_any s.kern os (e.wakers j b p v qj) _ rfl
        exact main (shed b _ (sheds_wake _ _ _ _) hp') (self s1)
  | force j b os =>
    unfold BSys.step BSys.force at main
    dsimp only at main
    split at main
    · exact main rfl (self (bw_force_ids _ _ _ _))
    · exact main rfl ⟨y, hy, rfl, rfl, rfl⟩
  | ready j os =>
    unfold BSys.step BSys.ready at main
    dsimp only at main
    split at main
    · exact main rfl (self (bw_ready_ids _ _ _))
    · exact main rfl ⟨y, hy, rfl, rfl, rfl⟩
  | exit p =>
    refine main rfl ⟨y, List.mem_filter.2 ⟨hy, ?_⟩, rfl, rfl, rfl⟩
    have : p ≠ pid := fun q => h2 (by rw [q])
    show (y.pid != p) = true
    rw [k3]
    exact bne_iff_ne.2 fun q => this q.symm

theorem BSys.Ever.runs {s : BSys} (h : s.Ever) : ∀ ops : List BOp, (s.runs ops).Ever
  | [] => h
  | op :: ops => BSys.Ever.runs (.step op h) ops

/-- After a failed send (see `C40_counterexample_send_error`) waiter 0 has lost its slot, and waiter 2 has it. -/
def evictDemo : List BOp :=
  [.openWait 0 0 10 (pick 100), .openWake 1 0 30 {}, .wake 1 { send := fun _ => .fail }, .openWait 2 0 20 (pick 101)]

/-- **C40 is false also for the waiter that comes next**: waiter 0 was evicted, waiter 2 has its slot; when waiter 0 is closed, in an orderly manner, waiter 2
loses its registration: wakes do not reach it any more, although nothing failed since it was opened. -/
theorem C40_counterexample_close :
    let s := BSys.runs {} evictDemo
    let s1 := (s.step (.close 0)).1
    ((s.hd 0).wr (s.slotOf 2)).pid = 20 ∧ s.slotOf 2 = s.slotOf 0 ∧ ((s1.hd 0).wr (s1.slotOf 2)).pid = 0 ∧
    (s.step (.wake 1 {})).1.pending 2 = 1 ∧ (s1.step (.wake 1 {})).2 = true ∧ (s1.step (.wake 1 {})).1.pending 2 = 0 := by
  decide +kernel

/-- A Boolean form of `Registered`, for examples. -/
def BSys.regB (s : BSys) (i hi pid : Nat) : Bool :=
  match s.ts i with
  | some (.wait a p w) => decide (a = hi ∧ p = pid ∧ w.slotno < BW_WAITMAX ∧ ((s.hd hi).wr w.slotno).pid = pid ∧
      s.kern.lookup ((s.hd hi).wr w.slotno).name = some w.sid)
  | _ => false

theorem BSys.reg_of {s : BSys} {i hi pid : Nat} : s.regB i hi pid = true ↔ s.Registered i hi pid := by
  unfold BSys.regB BSys.Registered
  constructor
  · intro h
    split at h
    · rename_i a p w q
      obtain ⟨rfl, rfl, h⟩ := of_decide_eq_true h
      exact ⟨w, q, h⟩
    · cases h
  · rintro ⟨w, q, h⟩
    rw [q]
    exact decide_eq_true ⟨rfl, rfl, h⟩

/-- The hypotheses of `C40_evicted_iff` are met, with a step that evicts: waiter 2 is registered, and closing waiter 0 evicts it. -/
example : let s := BSys.runs {} evictDemo
    s.Ever ∧ s.Registered 2 0 20 ∧ s.Evicts (.close 0) 2 0 20 := by
  refine ⟨.runs .init _, BSys.reg_of.1 (by decide +kernel), ?_⟩
  refine (C40_evicted_iff (.runs .init _) (BSys.reg_of.1 (by decide +kernel)) _).1 ?_
  rw [← BSys.reg_of]
  decide +kernel

/-- … with a send that fails, … -/
example : let s := BSys.runs {} [.openWait 0 0 10 (pick 100), .openWake 1 0 30 {}]
    s.Registered 0 0 10 ∧ s.Evicts (.wake 1 { send := fun _ => .fail }) 0 0 10 := by
  refine ⟨BSys.reg_of.1 (by decide +kernel), ?_⟩
  refine (C40_evicted_iff (.runs .init _) (BSys.reg_of.1 (by decide +kernel)) _).1 ?_
  rw [← BSys.reg_of]
  decide +kernel

/-- … with a stale connection, … -/
example : let s := BSys.runs {} [.openWait 0 0 10 (pick 100), .openWake 1 0 30 {}, .close 0, .openWait 2 0 40 (pick 100)]
    s.Registered 2 0 40 ∧ s.Evicts (.wake 1 {}) 2 0 40 := by
  refine ⟨BSys.reg_of.1 (by decide +kernel), ?_⟩
  refine (C40_evicted_iff (.runs .init _) (BSys.reg_of.1 (by decide +kernel)) _).1 ?_
  rw [← BSys.reg_of]
  decide +kernel

/-- … and with steps that do not evict: pruning and connecting by others, deaths of others, a wake by a fresh waker. -/
example : let s := BSys.runs {} bwDemo
    s.Registered 1 0 20 ∧ ∀ op ∈ [BOp.openWait 5 0 50 (pick 103), .openWake 5 0 50 {}, .close 3, .exit 40, .wake 2 {}], ¬ s.Evicts op 1 0 20 := by
  refine ⟨BSys.reg_of.1 (by decide +kernel), ?_⟩
  intro op hop
  rw [← C40_evicted_iff (.runs .init _) (BSys.reg_of.1 (by decide +kernel)) op, Classical.not_not, ← BSys.reg_of]
  simp only [List.mem_cons, List.not_mem_nil, or_false] at hop
  rcases hop with rfl | rfl | rfl | rfl | rfl <;> decide +kernel

/-- `C40_evicted_for_good`: waiter 0 of the demo is open and not registered. -/
example : let s := BSys.runs {} evictDemo
    s.Waiting 0 0 10 ∧ ¬ s.Registered 0 0 10 := by
  refine ⟨waiting_of (by decide +kernel), ?_⟩
  rw [← BSys.reg_of]
  decide +kernel

end Shr
