import Verif.Proof.Bw
/-! # The invariant of all users of the block/wake library -/
namespace Shr

/-- A waiter is registered: its slot has its pid and the name of its socket. -/
structure Reg (k : Kern) (h : BwH) (pid : Nat) (w : WaitT) : Prop where
  lt : w.slotno < BW_WAITMAX
  self : w.selfTo = w.sid
  own : (h.wr w.slotno).pid = pid
  sock : ∃ x ∈ k.socks, x.sid = w.sid ∧ x.name = (h.wr w.slotno).name ∧ x.pid = pid

/-- Slot `n` of handle `hi` belongs to an open waiter. -/
def BSys.Taken (s : BSys) (hi n : Nat) : Prop := ∃ i pid w, s.ts i = some (.wait hi pid w) ∧ w.slotno = n

theorem WakeInv.anti {P P' : Nat → Prop} {k : Kern} {h : BwH} {w : WakeT} (i : WakeInv P k h w) (hs : ∀ n, P' n → P n) : WakeInv P' k h w :=
  ⟨i.fd, i.le, fun e n hn => i.cur e n (hs n hn)⟩

structure BInv (s : BSys) : Prop where
  k : KInv s.kern
  seq : ∀ hi, 0 ≤ (s.hd hi).seqno
  wakers : ∀ i hi pid w, s.ts i = some (.wake hi pid w) → WakeInv (s.Taken hi) s.kern (s.hd hi) w
  reg : ∀ i hi pid w, s.ts i = some (.wait hi pid w) → Reg s.kern (s.hd hi) pid w
  dist : ∀ i j hi pid w hi' pid' w', s.ts i = some (.wait hi pid w) → s.ts j = some (.wait hi' pid' w') → w.sid = w'.sid → i = j

theorem Reg.same {k k' : Kern} {h : BwH} {pid : Nat} {w : WaitT} (r : Reg k h pid w) (s : SameIds k k') : Reg k' h pid w := by
  obtain ⟨x, hx, e1, e2, e3⟩ := r.sock
  obtain ⟨y, hy, f1, f2, f3⟩ := s.mem hx
  exact ⟨r.lt, r.self, r.own, y, hy, f1.trans e1, f2.trans e2, f3.trans e3⟩

theorem Reg.held {k : Kern} {h : BwH} {pid : Nat} {w : WaitT} (r : Reg k h pid w) :
    k.held (h.wr w.slotno).pid (h.wr w.slotno).name = true := by
  obtain ⟨x, hx, e1, e2, e3⟩ := r.sock
  exact held_iff.2 ⟨x, hx, e2, e3.trans r.own.symm⟩

theorem Reg.hstep {P : Nat → Prop} {k : Kern} {h h' : BwH} {pid : Nat} {w : WaitT} (r : Reg k h pid w) (s : HStep P h h') (hp : P w.slotno) :
    Reg k h' pid w := by
  have e := s.prot _ hp
  exact ⟨r.lt, r.self, by rw [e]; exact r.own, by rw [e]; exact r.sock⟩

theorem BInv.heldP {s : BSys} (hi : BInv s) (a : Nat) : HeldP s.kern (s.Taken a) (s.hd a) := by
  rintro n ⟨i, pid, w, e, rfl⟩
  have r := hi.reg i a pid w e
  exact ⟨r.lt, r.held⟩

theorem Reg.pid_ne {k : Kern} (hk : KInv k) {h : BwH} {pid : Nat} {w : WaitT} (r : Reg k h pid w) : pid ≠ 0 := by
  obtain ⟨x, hx, e1, e2, e3⟩ := r.sock
  rw [← e3]; exact hk.pid x hx

theorem Reg.sid_lt {k : Kern} (hk : KInv k) {h : BwH} {pid : Nat} {w : WaitT} (r : Reg k h pid w) : w.sid < k.next := by
  obtain ⟨x, hx, e1, e2, e3⟩ := r.sock
  rw [← e1]; exact hk.lt x hx

theorem WakeInv.same {P : Nat → Prop} {k k' : Kern} {h : BwH} {w : WakeT} (i : WakeInv P k h w) (s : SameIds k k') : WakeInv P k' h w :=
  ⟨i.fd.same s, i.le, i.cur⟩

theorem upd_hd {f : Nat → BwH} {a b : Nat} {v : BwH} {P : BwH → Prop} (h1 : P v) (h2 : P (f b)) : P (upd f a v b) := by
  unfold upd; split
  · exact h1
  · exact h2

/-- Steps that release slots of dead waiters and send datagrams. -/
theorem BInv.evolve {s : BSys} (hi : BInv s) (a : Nat) {k' : Kern} {h' : BwH} (e : SameIds s.kern k') (hs : HStep (s.Taken a) (s.hd a) h') :
    BInv ⟨k', upd s.hd a h', s.ts⟩ := by
  have hstep : ∀ b, HStep (s.Taken b) (s.hd b) (upd s.hd a h' b) := by
    intro b; unfold upd; split
    · rename_i e; subst e; exact hs
    · exact .refl _ _
  refine ⟨hi.k.same e, ?_, ?_, ?_, hi.dist⟩
  · intro b; exact Int.le_trans (hi.seq b) (hstep b).le
  · intro i b pid w hw; exact ((hi.wakers i b pid w hw).hstep (hstep b)).same e
  · intro i b pid w hw; exact ((hi.reg i b pid w hw).hstep (hstep b) ⟨i, pid, w, hw, rfl⟩).same e

theorem BInv.set_waker {s : BSys} (hi : BInv s) (i a pid : Nat) {w : WakeT} (h : WakeInv (s.Taken a) s.kern (s.hd a) w) :
    BInv ⟨s.kern, s.hd, upd s.ts i (some (.wake a pid w))⟩ := by
  have hother : ∀ j b p v, upd s.ts i (some (.wake a pid w)) j = some (.wait b p v) → s.ts j = some (.wait b p v) := by
    intro j b p v e; unfold upd at e; split at e
    · cases e
    · exact e
  have htk : ∀ b n, BSys.Taken ⟨s.kern, s.hd, upd s.ts i (some (.wake a pid w))⟩ b n → s.Taken b n := by
    rintro b n ⟨j, p, v, e, e2⟩
    exact ⟨j, p, v, hother _ _ _ _ e, e2⟩
  refine ⟨hi.k, hi.seq, ?_, fun j b p v e => hi.reg j b p v (hother _ _ _ _ e), ?_⟩
  · intro j b p v e
    dsimp only at e
    unfold upd at e; split at e
    · cases e; exact h.anti (htk _)
    · exact (hi.wakers j b p v e).anti (htk _)
  · intro j1 j2 b p v b' p' v' e1 e2
    exact hi.dist j1 j2 b p v b' p' v' (hother _ _ _ _ e1) (hother _ _ _ _ e2)

theorem BInv.drop {s : BSys} (hi : BInv s) {ts : Nat → Option BwT} (h : ∀ i, ts i = s.ts i ∨ ts i = none) : BInv ⟨s.kern, s.hd, ts⟩ := by
  have hs : ∀ j t, ts j = some t → s.ts j = some t := by
    intro j t e; rcases h j with h | h
    · rw [← h]; exact e
    · rw [h] at e; cases e
  exact ⟨hi.k, hi.seq, fun i b p v e => (hi.wakers i b p v (hs _ _ e)).anti (fun n ⟨j, q, v, e, e2⟩ => ⟨j, q, v, hs _ _ e, e2⟩), fun i b p v e => hi.reg i b p v (hs _ _ e),
    fun j1 j2 b p v b' p' v' e1 e2 => hi.dist j1 j2 b p v b' p' v' (hs _ _ e1) (hs _ _ e2)⟩

theorem WakeInv.fresh {P : Nat → Prop} {k : Kern} {h : BwH} (h0 : 0 ≤ h.seqno) : WakeInv P k h {} :=
  ⟨fun n sid _ e => (by cases e), by show (-1 : Int) ≤ _; omega, fun e => absurd e (by show (-1 : Int) ≠ _; omega)⟩

theorem BInv.openWake {s : BSys} (hi : BInv s) (i a pid : Nat) (os : Os) : BInv (s.openWake i a pid os).1 := by
  unfold BSys.openWake bw_open_wake
  by_cases hal : os.allocOk = false
  · rw [if_pos hal]
    exact hi.evolve a (.refl _) (.refl _ _)
  rw [if_neg hal]
  have hp := prune_step os (hi.heldP a)
  obtain ⟨s1, s2, -⟩ := bw_sync_spec hi.k os ((hi.heldP a).step hp) (w := {})
    (WakeInv.fresh (Int.le_trans (hi.seq a) hp.le))
  generalize bw_sync s.kern os (prune_handle s.kern os (s.hd a)) {} = z at s1 s2
  obtain ⟨h1, w1, ok⟩ := z
  dsimp only at s1 s2
  have e := hi.evolve a (.refl _) (hp.trans s1)
  cases ok with
  | false => exact e
  | true =>
    exact e.set_waker i a pid (by dsimp only; rw [upd_same]; exact s2)

theorem BInv.wake {s : BSys} (hi : BInv s) (i : Nat) {os : Os} (hs : ∀ n, os.send n ≠ .fail) : BInv (s.wake i os).1 := by
  unfold BSys.wake
  cases e : s.ts i with
  | none => exact hi
  | some t =>
    cases t with
    | wait _ _ _ => exact hi
    | wake a pid w =>
      dsimp only
      obtain ⟨s1, s2, s3, s4, s5⟩ := bw_wake_spec hi.k hs (hi.heldP a) (hi.wakers i a pid w e) _ rfl
      generalize bw_wake s.kern os (s.hd a) w = z at s1 s2 s3 s4 s5
      obtain ⟨k1, h1, w1, ok⟩ := z
      dsimp only at s1 s2 s3 s4 s5 ⊢
      exact (hi.evolve a s1 s3).set_waker i a pid (by dsimp only; rw [upd_same]; exact s4)

theorem bw_force_ids (k : Kern) (os : Os) (w : WaitT) (b : Bool) : SameIds k (bw_force k os w b).1 := by
  unfold bw_force
  repeat' split
  all_goals first | exact .refl k | (dsimp only; exact onQ_ids k _ _)

theorem bw_ready_ids (k : Kern) (os : Os) (w : WaitT) : SameIds k (bw_ready_ul k os w).1 := by
  unfold bw_ready_ul
  split
  · exact .refl k
  · dsimp only; exact onQ_ids k _ _

theorem upd_eq_self {α : Type} (f : Nat → α) (a : Nat) : upd f a (f a) = f := by
  funext j; unfold upd; split
  · rename_i e; rw [e]
  · rfl

theorem BInv.queues {s : BSys} (hi : BInv s) {k' : Kern} (e : SameIds s.kern k') : BInv ⟨k', s.hd, s.ts⟩ := by
  have := hi.evolve 0 e (.refl _ (s.hd 0))
  rw [upd_eq_self] at this; exact this

theorem BInv.force {s : BSys} (hi : BInv s) (i : Nat) (b : Bool) (os : Os) : BInv (s.force i b os).1 := by
  unfold BSys.force
  split
  · exact hi.queues (bw_force_ids _ _ _ _)
  · exact hi

theorem BInv.ready {s : BSys} (hi : BInv s) (i : Nat) (os : Os) : BInv (s.ready i os).1 := by
  unfold BSys.ready
  split
  · exact hi.queues (bw_ready_ids _ _ _)
  · exact hi

theorem BInv.exit {s : BSys} (hi : BInv s) (pid : Nat) : BInv (s.exit pid) := by
  have hw : ∀ i b p w, (s.exit pid).ts i = some (.wake b p w) → s.ts i = some (.wake b p w) := by
    intro i b p w e
    unfold BSys.exit at e; dsimp only at e
    cases e2 : s.ts i with
    | none => rw [e2] at e; cases e
    | some t => rw [e2] at e; cases t <;> dsimp only at e <;> split at e <;> first | cases e; done | exact e
  have hw2 : ∀ i b p w, (s.exit pid).ts i = some (.wait b p w) → s.ts i = some (.wait b p w) ∧ p ≠ pid := by
    intro i b p w e
    unfold BSys.exit at e; dsimp only at e
    cases e2 : s.ts i with
    | none => rw [e2] at e; cases e
    | some t =>
      rw [e2] at e
      cases t <;> dsimp only at e <;> split at e
      · cases e
      · cases e
      · cases e
      · cases e; rename_i h; exact ⟨rfl, h⟩
  refine ⟨hi.k.filter _, hi.seq, ?_, ?_, ?_⟩
  · intro i b p w e
    have := hi.wakers i b p w (hw _ _ _ _ e)
    exact ⟨this.fd.filter _, this.le, fun e n ⟨j, q, v, e2, e3⟩ => this.cur e n ⟨j, q, v, (hw2 _ _ _ _ e2).1, e3⟩⟩
  · intro i b p w e
    obtain ⟨e1, e2⟩ := hw2 _ _ _ _ e
    have r := hi.reg i b p w e1
    obtain ⟨x, hx, f1, f2, f3⟩ := r.sock
    exact ⟨r.lt, r.self, r.own, x, List.mem_filter.2 ⟨hx, by simp [f3, e2]⟩, f1, f2, f3⟩
  · intro j1 j2 b p v b' p' v' e1 e2
    exact hi.dist j1 j2 b p v b' p' v' (hw2 _ _ _ _ e1).1 (hw2 _ _ _ _ e2).1

/-- Two waiters of one handle have different slots. -/
theorem BInv.slots {s : BSys} (hi : BInv s) {i j a p p' : Nat} {w w' : WaitT} (h1 : s.ts i = some (.wait a p w))
    (h2 : s.ts j = some (.wait a p' w')) (e : w.slotno = w'.slotno) : i = j := by
  obtain ⟨x, hx, e1, e2, e3⟩ := (hi.reg i a p w h1).sock
  obtain ⟨y, hy, f1, f2, f3⟩ := (hi.reg j a p' w' h2).sock
  have : x = y := hi.k.names x hx y hy (by rw [e2, f2, e])
  exact hi.dist i j a p w a p' w' h1 h2 (by rw [← e1, ← f1, this])

theorem BInv.close {s : BSys} (hi : BInv s) (i : Nat) : BInv (s.close i) := by
  unfold BSys.close
  cases e : s.ts i with
  | none => exact hi
  | some t =>
    cases t with
    | wake a pid w =>
      exact hi.drop fun j => by unfold upd; split <;> simp
    | wait a pid w =>
      dsimp only [bw_close_wait]
      have hreg := hi.reg i a pid w e
      have hts : ∀ j t, upd s.ts i none j = some t → s.ts j = some t ∧ j ≠ i := by
        intro j t e2; unfold upd at e2; split at e2
        · cases e2
        · rename_i h; exact ⟨e2, h⟩
      refine ⟨hi.k.filter _, ?_, ?_, ?_, ?_⟩
      · intro b; unfold upd; dsimp only; split
        · rename_i h; subst h; rw [release_seqno]; have := hi.seq b; omega
        · exact hi.seq b
      · intro j b p v e2
        have hv := hi.wakers j b p v (hts _ _ e2).1
        refine ⟨hv.fd.filter _, ?_, ?_⟩
        · unfold upd; dsimp only; split
          · rename_i h; subst h; rw [release_seqno]; have := hv.le; omega
          · exact hv.le
        · unfold upd; dsimp only; split
          · rename_i h; subst h; rw [release_seqno]; have := hv.le; intro h; omega
          · exact fun e n ⟨j, q, v, e2, e3⟩ => hv.cur e n ⟨j, q, v, (hts _ _ e2).1, e3⟩
      · intro j b p v e2
        obtain ⟨e3, hne⟩ := hts _ _ e2
        have r := hi.reg j b p v e3
        have hwr : (upd s.hd a ((s.hd a).release w.slotno) b).wr v.slotno = (s.hd b).wr v.slotno := by
          unfold upd; split
          · rename_i h; subst h
            apply release_other
            intro e4
            exact hne (hi.slots e3 e e4)
          · rfl
        obtain ⟨x, hx, f1, f2, f3⟩ := r.sock
        refine ⟨r.lt, r.self, by rw [hwr]; exact r.own, x, List.mem_filter.2 ⟨hx, ?_⟩, f1, by rw [hwr]; exact f2, f3⟩
        have : x.sid ≠ w.sid := by
          rw [f1]; intro e4
          exact hne (hi.dist j i b p v a pid w e3 e e4)
        simp [this]
      · intro j1 j2 b p v b' p' v' e1 e2
        exact hi.dist j1 j2 b p v b' p' v' (hts _ _ e1).1 (hts _ _ e2).1

theorem freeSlot_some {h : BwH} {n : Nat} (e : freeSlot h = some n) : n < BW_WAITMAX ∧ (h.wr n).pid = 0 := by
  unfold freeSlot at e
  refine ⟨List.mem_range.1 (List.mem_of_find?_eq_some e), by simpa using List.find?_some e⟩

theorem freeSlot_none {h : BwH} (e : freeSlot h = none) : ∀ n < BW_WAITMAX, (h.wr n).pid ≠ 0 := by
  unfold freeSlot at e
  rw [List.find?_eq_none] at e
  intro n hn; simpa using e n (List.mem_range.2 hn)

/-- Registration of a new waiter. -/
theorem BInv.register {s : BSys} (hi : BInv s) {a pid n name : Nat} (hpid : pid ≠ 0) {h : BwH} (hs : HStep (s.Taken a) (s.hd a) h)
    (hn : n < BW_WAITMAX) (hfree : (h.wr n).pid = 0) (hname : ∀ x ∈ s.kern.socks, x.name ≠ name)
    (hcl : ∀ j hi pid w n, n < BW_WAITMAX → s.ts j = some (.wake hi pid w) → w.fd n ≠ none → w.name n ≠ name)
    {k' : Kern} (hk' : k' = ⟨s.kern.socks ++ [⟨s.kern.next, name, pid, 0⟩], s.kern.next + 1⟩)
    {h' : BwH} (hh' : h' = ⟨h.seqno + 1, upd h.wr n ⟨pid, name⟩⟩) :
    BInv ⟨k', upd s.hd a h', s.ts⟩ ∧ k'.lookup name = some s.kern.next ∧
    (∀ i, BInv ⟨k', upd s.hd a h', upd s.ts i (some (.wait a pid ⟨n, s.kern.next, s.kern.next⟩))⟩) ∧
    BInv ⟨k'.close s.kern.next, upd s.hd a { h' with wr := upd h'.wr n { h'.wr n with pid := 0 } }, s.ts⟩ := by
  have hmem : ∀ x, x ∈ k'.socks ↔ x ∈ s.kern.socks ∨ x = ⟨s.kern.next, name, pid, 0⟩ := by
    intro x; rw [hk']; simp
  have hnext : k'.next = s.kern.next + 1 := by rw [hk']
  have kk : KInv k' := by
    have hnd : (k'.socks.map Sock.sid).Nodup := by
      rw [hk']
      simp only [List.map_append, List.map_cons, List.map_nil]
      rw [List.nodup_append]
      refine ⟨hi.k.nodup, by simp, ?_⟩
      intro x hx y hy
      simp only [List.mem_singleton] at hy
      obtain ⟨z, hz, rfl⟩ := List.mem_map.1 hx
      have := hi.k.lt z hz
      omega
    refine ⟨fun x hx y hy e => eq_of_key hnd hx hy e, ?_, ?_, ?_, hnd⟩
    · intro x hx y hy e
      rcases (hmem x).1 hx with hx | rfl <;> rcases (hmem y).1 hy with hy | rfl
      · exact hi.k.names x hx y hy e
      · exact absurd e (hname x hx)
      · exact absurd e.symm (hname y hy)
      · rfl
    · intro x hx
      rw [hnext]
      rcases (hmem x).1 hx with hx | rfl
      · have := hi.k.lt x hx; omega
      · exact Nat.lt_succ_self _
    · intro x hx
      rcases (hmem x).1 hx with hx | rfl
      · exact hi.k.pid x hx
      · exact hpid
  have hseq : (s.hd a).seqno < h'.seqno := by rw [hh']; have := hs.le; dsimp only; omega
  -- slots of other waiters
  have hslot : ∀ j b p v, s.ts j = some (.wait b p v) → (upd s.hd a h' b).wr v.slotno = (s.hd b).wr v.slotno ∧ (b = a → v.slotno ≠ n) := by
    intro j b p v e
    have r := hi.reg j b p v e
    by_cases hb : b = a
    · subst hb
      rw [upd_same]
      have e1 := hs.prot _ ⟨j, p, v, e, rfl⟩
      have hne : v.slotno ≠ n := by
        intro e2; rw [e2] at e1; rw [e1] at hfree
        have := r.own; rw [e2] at this
        exact r.pid_ne hi.k (this.symm.trans hfree)
      rw [hh']; dsimp only; rw [upd_other _ _ hne]; exact ⟨e1, fun _ => hne⟩
    · rw [upd_other _ _ hb]; exact ⟨rfl, fun h => absurd h hb⟩
  have hreg : ∀ j b p v, s.ts j = some (.wait b p v) → Reg k' (upd s.hd a h' b) p v := by
    intro j b p v e
    have r := hi.reg j b p v e
    obtain ⟨hwr, -⟩ := hslot j b p v e
    obtain ⟨x, hx, f1, f2, f3⟩ := r.sock
    exact ⟨r.lt, r.self, by rw [hwr]; exact r.own, x, (hmem x).2 (.inl hx), f1, by rw [hwr]; exact f2, f3⟩
  have hfd : ∀ j b p v, s.ts j = some (.wake b p v) → FdOk k' v := by
    intro j b p v e m sid hlt e2
    obtain ⟨g1, g2⟩ := (hi.wakers j b p v e).fd m sid hlt e2
    refine ⟨by rw [hnext]; omega, ?_⟩
    intro x hx
    rcases (hmem x).1 hx with hx | rfl
    · exact g2 x hx
    · dsimp only
      constructor
      · intro e3; exact absurd e3.symm (hcl j b p v m hlt e (by rw [e2]; simp))
      · intro e3; omega
  have hwk : ∀ (h'' : BwH), h''.seqno = h'.seqno → ∀ j b p v, s.ts j = some (.wake b p v) →
      v.seqno ≤ (upd s.hd a h'' b).seqno ∧ (v.seqno = (upd s.hd a h'' b).seqno → b ≠ a ∧ ∀ m, s.Taken b m → Matched (upd s.hd a h'' b) v m) := by
    intro h'' eh j b p v e
    have r := hi.wakers j b p v e
    by_cases hb : b = a
    · subst hb; rw [upd_same, eh]
      have := r.le
      exact ⟨by omega, fun e2 => absurd e2 (by omega)⟩
    · rw [upd_other _ _ hb]; exact ⟨r.le, fun e => ⟨hb, r.cur e⟩⟩
  have hsq : ∀ (h'' : BwH), h''.seqno = h'.seqno → ∀ b, 0 ≤ (upd s.hd a h'' b).seqno := by
    intro h'' eh b
    by_cases hb : b = a
    · subst hb; rw [upd_same, eh]; have := hi.seq b; omega
    · rw [upd_other _ _ hb]; exact hi.seq b
  have base : BInv ⟨k', upd s.hd a h', s.ts⟩ :=
    ⟨kk, hsq h' rfl, fun j b p v e => ⟨hfd j b p v e, (hwk h' rfl j b p v e).1, fun e' => ((hwk h' rfl j b p v e).2 e').2⟩, hreg, hi.dist⟩
  have hnew : (⟨s.kern.next, name, pid, 0⟩ : Sock) ∈ k'.socks := (hmem _).2 (.inr rfl)
  refine ⟨base, lookup_of_mem kk hnew, ?_, ?_⟩
  · intro i
    have hold : ∀ j t, upd s.ts i (some (.wait a pid ⟨n, s.kern.next, s.kern.next⟩)) j = some t → j ≠ i → s.ts j = some t := by
      intro j t e hne; rw [upd_other _ _ hne] at e; exact e
    refine ⟨kk, hsq h' rfl, ?_, ?_, ?_⟩
    · intro j b p v e
      by_cases hj : j = i
      · subst hj; dsimp only at e; rw [upd_same] at e; cases e
      · have e1 := hold j _ e hj
        refine ⟨hfd j b p v e1, (hwk h' rfl j b p v e1).1, fun e2 m hm => ?_⟩
        obtain ⟨hb, hc⟩ := (hwk h' rfl j b p v e1).2 e2
        obtain ⟨j', q, u, e3, e4⟩ := hm
        by_cases hj' : j' = i
        · subst hj'; dsimp only at e3; rw [upd_same] at e3; cases e3; exact absurd rfl hb
        · exact hc m ⟨j', q, u, hold j' _ e3 hj', e4⟩
    · intro j b p v e
      by_cases hj : j = i
      · subst hj; dsimp only at e; rw [upd_same] at e; cases e
        refine ⟨hn, rfl, ?_, _, hnew, rfl, ?_, rfl⟩
        · dsimp only; rw [upd_same, hh']; dsimp only; rw [upd_same]
        · dsimp only; rw [upd_same, hh']; dsimp only; rw [upd_same]
      · exact hreg j b p v (hold j _ e hj)
    · intro j1 j2 b p v b' p' v' e1 e2 e3
      by_cases h1 : j1 = i <;> by_cases h2 : j2 = i
      · rw [h1, h2]
      · subst h1; dsimp only at e1; rw [upd_same] at e1; cases e1
        have := (hi.reg j2 b' p' v' (hold _ _ e2 h2)).sid_lt hi.k
        dsimp only at e3; omega
      · subst h2; dsimp only at e2; rw [upd_same] at e2; cases e2
        have := (hi.reg j1 b p v (hold _ _ e1 h1)).sid_lt hi.k
        dsimp only at e3; omega
      · exact hi.dist j1 j2 b p v b' p' v' (hold _ _ e1 h1) (hold _ _ e2 h2) e3
  · refine ⟨kk.filter _, hsq _ rfl, ?_, ?_, hi.dist⟩
    · intro j b p v e
      have hx := hwk { h' with wr := upd h'.wr n { h'.wr n with pid := 0 } } rfl j b p v e
      exact ⟨(hfd j b p v e).filter _, hx.1, fun e' => (hx.2 e').2⟩
    · intro j b p v e
      have r := hi.reg j b p v e
      have hwr : (upd s.hd a { h' with wr := upd h'.wr n { h'.wr n with pid := 0 } } b).wr v.slotno = (s.hd b).wr v.slotno := by
        obtain ⟨e1, e2⟩ := hslot j b p v e
        by_cases hb : b = a
        · subst hb; rw [upd_same] at e1 ⊢; dsimp only; rw [upd_other _ _ (e2 rfl)]; exact e1
        · rw [upd_other _ _ hb]
      obtain ⟨x, hx, f1, f2, f3⟩ := r.sock
      refine ⟨r.lt, r.self, by rw [hwr]; exact r.own, x, List.mem_filter.2 ⟨(hmem x).2 (.inl hx), ?_⟩, f1, by rw [hwr]; exact f2, f3⟩
      have := hi.k.lt x hx
      simp; omega

theorem BInv.openWait {s : BSys} (hi : BInv s) (i a pid : Nat) (hpid : pid ≠ 0) {os : Os}
    (hcl : ∀ j hi pid w n, n < BW_WAITMAX → s.ts j = some (.wake hi pid w) → w.fd n ≠ none → w.name n ≠ os.bindName) :
    BInv (s.openWait i a pid os).1 := by
  unfold BSys.openWait bw_open_wait
  by_cases hal : os.allocOk = false
  · rw [if_pos hal]
    exact hi.evolve a (.refl _) (.refl _ _)
  rw [if_neg hal]
  have hp := prune_step os (hi.heldP a)
  generalize prune_handle s.kern os (s.hd a) = h at hp
  unfold bw_reserve
  cases ef : freeSlot h with
  | none => exact hi.evolve a (.refl _) hp
  | some n =>
    obtain ⟨hn, hfree⟩ := freeSlot_some ef
    dsimp only
    unfold make_socket
    by_cases hb : os.bindOk = false
    · rw [if_pos hb]; exact hi.evolve a (.refl _) hp
    rw [if_neg hb]
    cases el : s.kern.lookup os.bindName with
    | some t => exact hi.evolve a (.refl _) hp
    | none =>
      simp only [Option.isSome_none, Bool.false_eq_true, if_false]
      have hh : (⟨h.seqno + 1, upd (upd h.wr n { h.wr n with name := os.bindName }) n
          { (upd h.wr n { h.wr n with name := os.bindName }) n with pid := pid }⟩ : BwH) = ⟨h.seqno + 1, upd h.wr n ⟨pid, os.bindName⟩⟩ := by
        congr 1
        funext j
        unfold upd
        by_cases hj : j = n
        · simp [hj]
        · simp [hj]
      obtain ⟨r1, r2, r3, r4⟩ := hi.register hpid hp hn hfree (lookup_none el) hcl rfl hh
      rw [show ((upd (upd h.wr n { h.wr n with name := os.bindName }) n
          { (upd h.wr n { h.wr n with name := os.bindName }) n with pid := pid }) n).name = os.bindName by
        rw [upd_same]; dsimp only; rw [upd_same]]
      unfold connect
      by_cases hso : os.selfOk = true
      · rw [if_pos hso, r2]
        dsimp only
        by_cases hep : os.epollOk = false
        · rw [if_pos hep]; exact r4
        · rw [if_neg hep]; exact r3 i
      · rw [if_neg hso]; exact r4

theorem BInv.init : BInv {} where
  k := ⟨fun x hx => (by cases hx), fun x hx => (by cases hx), fun x hx => (by cases hx), fun x hx => (by cases hx), List.nodup_nil⟩
  seq := fun _ => Int.le_refl _
  wakers := fun i hi pid w e => (by cases e)
  reg := fun i hi pid w e => (by cases e)
  dist := fun i j hi pid w hi' pid' w' e => (by cases e)

theorem BInv.step {s : BSys} (hi : BInv s) (op : BOp) (hc : s.Clean op) : BInv (s.step op).1 := by
  cases op with
  | openWake i a pid os =>
    unfold BSys.step; dsimp only; split
    · exact hi
    · exact hi.openWake i a pid os
  | openWait i a pid os =>
    unfold BSys.step; dsimp only; split
    · exact hi
    · rename_i h; exact hi.openWait i a pid (fun e => h (.inr e)) hc
  | close i => exact hi.close i
  | wake i os => exact hi.wake i hc
  | force i b os => exact hi.force i b os
  | ready i os => exact hi.ready i os
  | exit pid => exact hi.exit pid

theorem BSys.Reach.inv {s : BSys} (h : s.Reach) : BInv s := by
  induction h with
  | init => exact BInv.init
  | step op _ hc ih => exact ih.step op hc

end Shr
