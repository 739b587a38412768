import Verif.Model.Bw
import Verif.Proof.Flow
/-! # Invariants of the block/wake library -/
namespace Shr

/-! ## The kernel -/

def Sock.id (x : Sock) : Nat × Nat × Nat := (x.sid, x.name, x.pid)

/-- The same sockets, apart from their queues. -/
structure SameIds (k k' : Kern) : Prop where
  next : k'.next = k.next
  ids : k'.socks.map Sock.id = k.socks.map Sock.id

theorem SameIds.refl (k : Kern) : SameIds k k := ⟨rfl, rfl⟩
theorem SameIds.trans {a b c : Kern} (h : SameIds a b) (g : SameIds b c) : SameIds a c :=
  ⟨g.next.trans h.next, g.ids.trans h.ids⟩
theorem SameIds.symm {a b : Kern} (h : SameIds a b) : SameIds b a := ⟨h.next.symm, h.ids.symm⟩

theorem SameIds.mem {k k' : Kern} (h : SameIds k k') {x : Sock} (hx : x ∈ k.socks) :
    ∃ y ∈ k'.socks, y.sid = x.sid ∧ y.name = x.name ∧ y.pid = x.pid := by
  have : x.id ∈ k'.socks.map Sock.id := by rw [h.ids]; exact List.mem_map_of_mem hx
  obtain ⟨y, hy, e⟩ := List.mem_map.1 this
  simp only [Sock.id, Prod.mk.injEq] at e
  exact ⟨y, hy, e⟩

structure KInv (k : Kern) : Prop where
  sids : ∀ x ∈ k.socks, ∀ y ∈ k.socks, x.sid = y.sid → x = y
  names : ∀ x ∈ k.socks, ∀ y ∈ k.socks, x.name = y.name → x = y
  lt : ∀ x ∈ k.socks, x.sid < k.next
  pid : ∀ x ∈ k.socks, x.pid ≠ 0
  nodup : (k.socks.map Sock.sid).Nodup

theorem held_iff {k : Kern} {pid name : Nat} : k.held pid name = true ↔ ∃ x ∈ k.socks, x.name = name ∧ x.pid = pid := by
  simp [Kern.held]

theorem isOpen_iff {k : Kern} {sid : Nat} : k.isOpen sid = true ↔ ∃ x ∈ k.socks, x.sid = sid := by
  simp [Kern.isOpen]

theorem lookup_some {k : Kern} {name sid : Nat} (h : k.lookup name = some sid) :
    ∃ x ∈ k.socks, x.name = name ∧ x.sid = sid := by
  unfold Kern.lookup at h
  cases e : k.socks.find? (fun s => s.name == name) with
  | none => rw [e] at h; cases h
  | some x =>
    rw [e] at h
    simp only [Option.map_some, Option.some.injEq] at h
    exact ⟨x, List.mem_of_find?_eq_some e, by simpa using List.find?_some e, h⟩

theorem lookup_none {k : Kern} {name : Nat} (h : k.lookup name = none) : ∀ x ∈ k.socks, x.name ≠ name := by
  unfold Kern.lookup at h
  rw [Option.map_eq_none_iff, List.find?_eq_none] at h
  intro x hx e
  exact h x hx (by simp [e])

theorem lookup_of_mem {k : Kern} (hk : KInv k) {x : Sock} (hx : x ∈ k.socks) : k.lookup x.name = some x.sid := by
  cases e : k.lookup x.name with
  | none => exact absurd rfl (lookup_none e x hx)
  | some t =>
    obtain ⟨y, hy, h1, h2⟩ := lookup_some e
    rw [← h2, hk.names y hy x hx h1]

theorem pending_of_mem {k : Kern} (hk : KInv k) {x : Sock} (hx : x ∈ k.socks) : k.pending x.sid = x.q := by
  unfold Kern.pending
  cases e : k.socks.find? (fun s => s.sid == x.sid) with
  | none => rw [List.find?_eq_none] at e; exact absurd (e x hx) (by simp)
  | some y =>
    have h1 := List.mem_of_find?_eq_some e
    have h2 : y.sid = x.sid := by simpa using List.find?_some e
    rw [hk.sids y h1 x hx h2]; rfl

theorem pending_closed {k : Kern} {sid : Nat} (h : k.isOpen sid = false) : k.pending sid = 0 := by
  unfold Kern.pending
  have : k.socks.find? (fun s => s.sid == sid) = none := by
    rw [List.find?_eq_none]
    unfold Kern.isOpen at h
    simpa using h
  rw [this]; rfl

theorem onQ_ids (k : Kern) (sid : Nat) (f : Nat → Nat) : SameIds k (k.onQ sid f) := by
  refine ⟨rfl, ?_⟩
  unfold Kern.onQ
  rw [List.map_map]
  apply List.map_congr_left
  intro x _
  dsimp only [Function.comp]
  split <;> rfl

theorem pending_onQ (k : Kern) (sid : Nat) (f : Nat → Nat) (t : Nat) :
    (k.onQ sid f).pending t = if t = sid then (if k.isOpen sid then f (k.pending sid) else 0) else k.pending t := by
  by_cases ho : k.isOpen sid = true
  · unfold Kern.pending Kern.onQ
    dsimp only
    rw [List.find?_map]
    have : ((fun s : Sock => s.sid == t) ∘ fun s => if s.sid = sid then { s with q := f s.q } else s) = fun s => s.sid == t := by
      funext s; dsimp only [Function.comp]; split <;> rfl
    rw [this]
    by_cases h : t = sid
    · subst h
      rw [if_pos rfl, if_pos ho]
      cases e : k.socks.find? (fun s => s.sid == t) with
      | none =>
        obtain ⟨x, hx, e2⟩ := isOpen_iff.1 ho
        rw [List.find?_eq_none] at e
        exact absurd e2 (by simpa using e x hx)
      | some x =>
        have h2 : x.sid = t := by simpa using List.find?_some e
        simp [h2]
    · rw [if_neg h]
      cases e : k.socks.find? (fun s => s.sid == t) with
      | none => rfl
      | some x =>
        have h2 : x.sid = t := by simpa using List.find?_some e
        simp [h2, h]
  · have ho' : k.isOpen sid = false := by simpa using ho
    have e : k.onQ sid f = k := by
      unfold Kern.onQ
      have : (k.socks.map fun s => if s.sid = sid then { s with q := f s.q } else s) = k.socks := by
        conv => rhs; rw [← List.map_id k.socks]
        apply List.map_congr_left
        intro x hx
        rw [if_neg]; · rfl
        intro e; exact ho (isOpen_iff.2 ⟨x, hx, e⟩)
      rw [this]
    rw [e]
    by_cases h : t = sid
    · subst h; rw [if_pos rfl, if_neg ho, pending_closed ho']
    · rw [if_neg h]

theorem SameIds.sids {k k' : Kern} (h : SameIds k k') : k'.socks.map Sock.sid = k.socks.map Sock.sid := by
  have := congrArg (List.map Prod.fst) h.ids
  simpa [List.map_map, Function.comp_def, Sock.id] using this

theorem SameIds.held {k k' : Kern} (h : SameIds k k') (pid name : Nat) : k'.held pid name = k.held pid name := by
  rw [Bool.eq_iff_iff, held_iff, held_iff]
  constructor
  · rintro ⟨x, hx, e1, e2⟩
    obtain ⟨y, hy, f1, f2, f3⟩ := h.symm.mem hx
    exact ⟨y, hy, f2.trans e1, f3.trans e2⟩
  · rintro ⟨x, hx, e1, e2⟩
    obtain ⟨y, hy, f1, f2, f3⟩ := h.mem hx
    exact ⟨y, hy, f2.trans e1, f3.trans e2⟩

theorem SameIds.isOpen {k k' : Kern} (h : SameIds k k') (sid : Nat) : k'.isOpen sid = k.isOpen sid := by
  rw [Bool.eq_iff_iff, isOpen_iff, isOpen_iff]
  constructor
  · rintro ⟨x, hx, e1⟩
    obtain ⟨y, hy, f1, f2, f3⟩ := h.symm.mem hx
    exact ⟨y, hy, f1.trans e1⟩
  · rintro ⟨x, hx, e1⟩
    obtain ⟨y, hy, f1, f2, f3⟩ := h.mem hx
    exact ⟨y, hy, f1.trans e1⟩

/-- An element is determined by its key in a list with distinct keys. -/
theorem eq_of_key {l : List Sock} (h : (l.map Sock.sid).Nodup) {x y : Sock} (hx : x ∈ l) (hy : y ∈ l) (e : x.sid = y.sid) : x = y := by
  induction l with
  | nil => cases hx
  | cons a l ih =>
    simp only [List.map_cons, List.nodup_cons] at h
    rcases List.mem_cons.1 hx with rfl | hx' <;> rcases List.mem_cons.1 hy with rfl | hy'
    · rfl
    · exact absurd (List.mem_map_of_mem (f := Sock.sid) hy') (by rw [← e]; exact h.1)
    · exact absurd (List.mem_map_of_mem (f := Sock.sid) hx') (by rw [e]; exact h.1)
    · exact ih h.2 hx' hy'

theorem KInv.same {k k' : Kern} (hk : KInv k) (h : SameIds k k') : KInv k' := by
  have hnd : (k'.socks.map Sock.sid).Nodup := by rw [h.sids]; exact hk.nodup
  have hs : ∀ x ∈ k'.socks, ∀ y ∈ k'.socks, x.sid = y.sid → x = y := fun x hx y hy e => eq_of_key hnd hx hy e
  refine ⟨hs, ?_, ?_, ?_, hnd⟩
  · intro x hx y hy e
    obtain ⟨a, ha, a1, a2, a3⟩ := h.symm.mem hx
    obtain ⟨b, hb, b1, b2, b3⟩ := h.symm.mem hy
    have : a = b := hk.names a ha b hb (by rw [a2, b2, e])
    exact hs x hx y hy (by rw [← a1, ← b1, this])
  · intro x hx
    obtain ⟨a, ha, a1, a2, a3⟩ := h.symm.mem hx
    rw [← a1, h.next]; exact hk.lt a ha
  · intro x hx
    obtain ⟨a, ha, a1, a2, a3⟩ := h.symm.mem hx
    rw [← a3]; exact hk.pid a ha

theorem KInv.filter {k : Kern} (hk : KInv k) (p : Sock → Bool) : KInv { k with socks := k.socks.filter p } := by
  refine ⟨?_, ?_, ?_, ?_, ?_⟩
  · intro x hx y hy; exact hk.sids x (List.mem_filter.1 hx).1 y (List.mem_filter.1 hy).1
  · intro x hx y hy; exact hk.names x (List.mem_filter.1 hx).1 y (List.mem_filter.1 hy).1
  · intro x hx; exact hk.lt x (List.mem_filter.1 hx).1
  · intro x hx; exact hk.pid x (List.mem_filter.1 hx).1
  · exact hk.nodup.sublist (List.filter_sublist.map _)

/-! ## Handles change only by releasing slots of dead waiters -/

/-- `P` marks slots whose owners are alive. -/
def HeldP (k : Kern) (P : Nat → Prop) (h : BwH) : Prop := ∀ n, P n → n < BW_WAITMAX ∧ k.held (h.wr n).pid (h.wr n).name = true

/-- The slots in `P` are untouched, and `seqno` does not decrease. -/
structure HStep (P : Nat → Prop) (h h' : BwH) : Prop where
  le : h.seqno ≤ h'.seqno
  prot : ∀ n, P n → h'.wr n = h.wr n

theorem HStep.refl (P : Nat → Prop) (h : BwH) : HStep P h h := ⟨Int.le_refl _, fun _ _ => rfl⟩

theorem HStep.trans {P : Nat → Prop} {a b c : BwH} (h : HStep P a b) (g : HStep P b c) : HStep P a c :=
  ⟨Int.le_trans h.le g.le, fun n hn => (g.prot n hn).trans (h.prot n hn)⟩

theorem HeldP.step {k : Kern} {P : Nat → Prop} {h h' : BwH} (hp : HeldP k P h) (s : HStep P h h') : HeldP k P h' :=
  fun n hn => ⟨(hp n hn).1, by rw [s.prot n hn]; exact (hp n hn).2⟩

theorem HeldP.same {k k' : Kern} {P : Nat → Prop} {h : BwH} (hp : HeldP k P h) (s : SameIds k k') : HeldP k' P h :=
  fun n hn => ⟨(hp n hn).1, by rw [s.held]; exact (hp n hn).2⟩

theorem HeldP.not {k : Kern} {P : Nat → Prop} {h : BwH} (hp : HeldP k P h) {n : Nat}
    (hn : k.held (h.wr n).pid (h.wr n).name = false) : ¬ P n := fun h1 => by
  have := (hp n h1).2
  rw [hn] at this; cases this

theorem release_seqno (h : BwH) (n : Nat) : (h.release n).seqno = h.seqno + 1 := rfl
theorem release_other (h : BwH) {n m : Nat} (e : m ≠ n) : (h.release n).wr m = h.wr m := by
  unfold BwH.release; dsimp only; rw [upd_other _ _ e]
theorem release_pid (h : BwH) (n : Nat) : ((h.release n).wr n).pid = 0 := by
  unfold BwH.release; dsimp only; rw [upd_same]

theorem HStep.release {P : Nat → Prop} {h : BwH} {n : Nat} (hn : ¬ P n) : HStep P h (h.release n) := by
  refine ⟨by rw [release_seqno]; omega, ?_⟩
  intro m hm
  by_cases e : m = n
  · subst e; exact absurd hm hn
  · exact release_other h e

theorem has_pid_zero {k : Kern} {pid name : Nat} {b : Bool} (h : has_pid_socket k pid name b = 0) : k.held pid name = false := by
  unfold has_pid_socket at h
  split at h
  · omega
  · split at h
    · omega
    · rename_i h2; simpa using h2

theorem pruneSlot_step {k : Kern} (os : Os) {P : Nat → Prop} {h : BwH} (hp : HeldP k P h) (n : Nat) : HStep P h (pruneSlot k os h n) := by
  unfold pruneSlot
  split
  · exact .refl P h
  · split
    · rename_i h2; exact .release (hp.not (has_pid_zero h2))
    · exact .refl P h

theorem prune_step {k : Kern} (os : Os) {P : Nat → Prop} {h : BwH} (hp : HeldP k P h) : HStep P h (prune_handle k os h) := by
  unfold prune_handle
  generalize List.range BW_WAITMAX = l
  induction l generalizing h with
  | nil => exact .refl P h
  | cons n l ih =>
    have h1 := pruneSlot_step os hp n
    exact h1.trans (ih (hp.step h1))

/-! ## Wakers -/

/-- The connections of a waker lead to the socket they were opened to, and to no other socket that has the same
name. -/
def FdOk (k : Kern) (w : WakeT) : Prop :=
  ∀ n sid, n < BW_WAITMAX → w.fd n = some sid → sid < k.next ∧ ∀ x ∈ k.socks, (x.name = w.name n ↔ x.sid = sid)

/-- The waker is connected to the waiter of slot `n`, if there is one. -/
def Matched (h : BwH) (w : WakeT) (n : Nat) : Prop :=
  (h.wr n).pid ≠ 0 → (∃ sid, w.fd n = some sid) ∧ w.name n = (h.wr n).name

structure WakeInv (P : Nat → Prop) (k : Kern) (h : BwH) (w : WakeT) : Prop where
  fd : FdOk k w
  le : w.seqno ≤ h.seqno
  cur : w.seqno = h.seqno → ∀ n, P n → Matched h w n

theorem FdOk.same {k k' : Kern} (s : SameIds k k') {w : WakeT} (h : FdOk k w) : FdOk k' w := by
  intro n sid hlt e
  obtain ⟨h1, h2⟩ := h n sid hlt e
  refine ⟨by rw [s.next]; exact h1, ?_⟩
  intro x hx
  obtain ⟨y, hy, f1, f2, f3⟩ := s.symm.mem hx
  rw [← f1, ← f2]; exact h2 y hy

theorem FdOk.filter {k : Kern} {w : WakeT} (h : FdOk k w) (p : Sock → Bool) : FdOk { k with socks := k.socks.filter p } w :=
  fun n sid hlt e => ⟨(h n sid hlt e).1, fun x hx => (h n sid hlt e).2 x (List.mem_filter.1 hx).1⟩

theorem WakeInv.hstep {P : Nat → Prop} {k : Kern} {h h' : BwH} {w : WakeT} (i : WakeInv P k h w) (s : HStep P h h') : WakeInv P k h' w := by
  refine ⟨i.fd, Int.le_trans i.le s.le, ?_⟩
  intro e n hn
  have h1 := i.le; have h2 := s.le
  have := i.cur (by omega) n hn
  unfold Matched at this ⊢
  rw [s.prot n hn]; exact this

theorem syncSlot_spec {k : Kern} (hk : KInv k) (os : Os) {P : Nat → Prop} {h : BwH} (hp : HeldP k P h) {w : WakeT} (hf : FdOk k w) (n : Nat) :
    HStep P h (syncSlot k os h w n).1 ∧ FdOk k (syncSlot k os h w n).2.1 ∧
    (∀ m, m ≠ n → (syncSlot k os h w n).1.wr m = h.wr m ∧ (syncSlot k os h w n).2.1.fd m = w.fd m ∧
      (syncSlot k os h w n).2.1.name m = w.name m) ∧
    (syncSlot k os h w n).2.1.seqno = w.seqno ∧
    ((syncSlot k os h w n).2.2 = true → Matched (syncSlot k os h w n).1 (syncSlot k os h w n).2.1 n) := by
  unfold syncSlot
  -- the first half
  generalize hw1 : (if w.fd n ≠ none ∧ ((h.wr n).pid = 0 ∨ (h.wr n).name ≠ w.name n) then { w with fd := upd w.fd n none } else w) = w1
  have a1 : FdOk k w1 := by
    rw [← hw1]; split
    · intro m sid hlt e
      dsimp only at e ⊢
      by_cases hm : m = n
      · subst hm; rw [upd_same] at e; cases e
      · rw [upd_other _ _ hm] at e; exact hf m sid hlt e
    · exact hf
  have a2 : ∀ m, m ≠ n → w1.fd m = w.fd m := by
    intro m hm; rw [← hw1]; split
    · dsimp only; rw [upd_other _ _ hm]
    · rfl
  have a3 : w1.name = w.name := by rw [← hw1]; split <;> rfl
  have a4 : w1.seqno = w.seqno := by rw [← hw1]; split <;> rfl
  have a5 : w1.fd n ≠ none → (h.wr n).pid ≠ 0 → w1.name n = (h.wr n).name := by
    intro h1 h2
    rw [← hw1] at h1 ⊢
    split
    · rename_i hc; rw [if_pos hc] at h1; dsimp only at h1; rw [upd_same] at h1; exact absurd rfl h1
    · rename_i hc; rw [if_neg hc] at h1
      by_cases e : (h.wr n).name = w.name n
      · exact e.symm
      · exact absurd ⟨h1, .inr e⟩ hc
  clear hw1
  dsimp only
  by_cases hc : (h.wr n).pid ≠ 0 ∧ w1.fd n = none
  · rw [if_pos hc]
    -- opening
    have b1 : FdOk k { w1 with name := upd w1.name n (h.wr n).name } := by
      intro m sid hlt e
      dsimp only at e ⊢
      by_cases hm : m = n
      · subst hm; rw [hc.2] at e; cases e
      · rw [upd_other _ _ hm]; exact a1 m sid hlt e
    unfold open_socket
    dsimp only
    split
    · exact ⟨.refl P h, b1, fun m hm => ⟨rfl, a2 m hm, by dsimp only; rw [upd_other _ _ hm, a3]⟩, a4, fun e => (by cases e)⟩
    · split
      · rename_i sid e
        unfold connect at e
        split at e
        · rw [upd_same] at e
          obtain ⟨x, hx, e1, e2⟩ := lookup_some e
          refine ⟨.refl P h, ?_, ?_, a4, ?_⟩
          · intro m s hlt e3
            dsimp only at e3 ⊢
            by_cases hm : m = n
            · subst hm
              rw [upd_same] at e3; cases e3
              rw [upd_same]
              refine ⟨by rw [← e2]; exact hk.lt x hx, fun y hy => ⟨fun f => ?_, fun f => ?_⟩⟩
              · rw [hk.names y hy x hx (f.trans e1.symm)]; exact e2
              · rw [hk.sids y hy x hx (f.trans e2.symm)]; exact e1
            · rw [upd_other _ _ hm] at e3; rw [upd_other _ _ hm]; exact a1 m s hlt e3
          · intro m hm
            dsimp only
            rw [upd_other _ _ hm, upd_other _ _ hm, a2 m hm, a3]
            exact ⟨rfl, rfl, rfl⟩
          · intro _ _
            dsimp only
            rw [upd_same, upd_same]
            exact ⟨⟨sid, rfl⟩, rfl⟩
        · cases e
      · split
        · rename_i h2
          rw [upd_same] at h2
          refine ⟨.release (hp.not (has_pid_zero h2)), b1, fun m hm => ⟨release_other h hm, a2 m hm, by dsimp only; rw [upd_other _ _ hm, a3]⟩, a4, ?_⟩
          intro _ h3
          exact absurd (release_pid h n) h3
        · exact ⟨.refl P h, b1, fun m hm => ⟨rfl, a2 m hm, by dsimp only; rw [upd_other _ _ hm, a3]⟩, a4, fun e => (by cases e)⟩
  · rw [if_neg hc]
    refine ⟨.refl P h, a1, fun m hm => ⟨rfl, a2 m hm, by rw [a3]⟩, a4, ?_⟩
    intro _ hp
    dsimp only at hp ⊢
    cases e : w1.fd n with
    | none => exact absurd ⟨hp, e⟩ hc
    | some sid => exact ⟨⟨sid, rfl⟩, a5 (by rw [e]; simp) hp⟩

theorem syncLoop_spec {k : Kern} (hk : KInv k) (os : Os) {P : Nat → Prop} : ∀ (ns : List Nat), ns.Nodup → ∀ (h : BwH) (w : WakeT), HeldP k P h → FdOk k w →
    HStep P h (syncLoop k os ns h w).1 ∧ FdOk k (syncLoop k os ns h w).2.1 ∧
    (∀ m, m ∉ ns → (syncLoop k os ns h w).1.wr m = h.wr m ∧ (syncLoop k os ns h w).2.1.fd m = w.fd m ∧
      (syncLoop k os ns h w).2.1.name m = w.name m) ∧
    (syncLoop k os ns h w).2.1.seqno = w.seqno ∧
    ((syncLoop k os ns h w).2.2 = true → ∀ n ∈ ns, Matched (syncLoop k os ns h w).1 (syncLoop k os ns h w).2.1 n) := by
  intro ns
  induction ns with
  | nil => intro _ h w _ hf; exact ⟨.refl P h, hf, fun _ _ => ⟨rfl, rfl, rfl⟩, rfl, fun _ n hn => (by cases hn)⟩
  | cons n ns ih =>
    intro hnd h w hp hf
    obtain ⟨hn, hnd'⟩ := List.nodup_cons.1 hnd
    obtain ⟨s1, s2, s3, s4, s5⟩ := syncSlot_spec hk os hp hf n
    unfold syncLoop
    generalize syncSlot k os h w n = z at s1 s2 s3 s4 s5
    obtain ⟨h1, w1, ok⟩ := z
    dsimp only at s1 s2 s3 s4 s5
    cases ok with
    | false =>
      dsimp only
      exact ⟨s1, s2, fun m hm => s3 m (fun e => hm (by rw [e]; simp)), s4, fun e => (by cases e)⟩
    | true =>
      dsimp only
      obtain ⟨t1, t2, t3, t4, t5⟩ := ih hnd' h1 w1 (hp.step s1) s2
      refine ⟨s1.trans t1, t2, ?_, t4.trans s4, ?_⟩
      · intro m hm
        simp only [List.mem_cons, not_or] at hm
        obtain ⟨e1, e2, e3⟩ := s3 m hm.1
        obtain ⟨f1, f2, f3⟩ := t3 m hm.2
        exact ⟨f1.trans e1, f2.trans e2, f3.trans e3⟩
      · intro e m hm
        rcases List.mem_cons.1 hm with rfl | hm
        · obtain ⟨f1, f2, f3⟩ := t3 m hn
          have := s5 rfl
          unfold Matched at this ⊢
          rw [f1, f2, f3]; exact this
        · exact t5 e m hm

theorem range_nodup : (List.range BW_WAITMAX).Nodup := List.nodup_range

theorem bw_sync_spec {k : Kern} (hk : KInv k) (os : Os) {P : Nat → Prop} {h : BwH} (hp : HeldP k P h) {w : WakeT} (hi : WakeInv P k h w) :
    HStep P h (bw_sync k os h w).1 ∧ WakeInv P k (bw_sync k os h w).1 (bw_sync k os h w).2.1 ∧
    ((bw_sync k os h w).2.2 = true → (bw_sync k os h w).2.1.seqno = (bw_sync k os h w).1.seqno) := by
  unfold bw_sync
  by_cases e : w.seqno = h.seqno
  · rw [if_pos e]; exact ⟨.refl P h, hi, fun _ => e⟩
  rw [if_neg e]
  obtain ⟨s1, s2, -, s4, s5⟩ := syncLoop_spec hk os _ range_nodup h w hp hi.fd
  generalize syncLoop k os (List.range BW_WAITMAX) h w = z at s1 s2 s4 s5
  obtain ⟨h1, w1, ok⟩ := z
  dsimp only at s1 s2 s4 s5
  cases ok with
  | false =>
    refine ⟨s1, ⟨s2, ?_, ?_⟩, fun e => (by cases e)⟩
    · show w1.seqno ≤ h1.seqno; rw [s4]; exact Int.le_trans hi.le s1.le
    · intro e2
      have e2 : w1.seqno = h1.seqno := e2
      have h1 := hi.le; have h2 := s1.le
      rw [s4] at e2
      exact absurd (by omega) e
  | true =>
    refine ⟨s1, ⟨s2, Int.le_refl _, ?_⟩, fun _ => rfl⟩
    intro _ n hn
    exact s5 rfl n (List.mem_range.2 (hp n hn).1)

/-! ## Waking -/

theorem sendmsg_spec (k : Kern) (sid : Nat) (o : SendRes) (ho : o ≠ .fail) :
    SameIds k (sendmsg k sid o).1 ∧ (∀ t, k.pending t ≤ (sendmsg k sid o).1.pending t) ∧
    (k.isOpen sid = true → (sendmsg k sid o).2 ≠ .fail ∧ 1 ≤ (sendmsg k sid o).1.pending sid) ∧
    (k.isOpen sid = false → (sendmsg k sid o).1 = k) ∧
    (∀ t, t ≠ sid → (sendmsg k sid o).1.pending t = k.pending t) := by
  unfold sendmsg
  have key : SameIds k (k.onQ sid (· + 1)) ∧ (∀ t, k.pending t ≤ (k.onQ sid (· + 1)).pending t) ∧
      (k.isOpen sid = true → 1 ≤ (k.onQ sid (· + 1)).pending sid) ∧
      (∀ t, t ≠ sid → (k.onQ sid (· + 1)).pending t = k.pending t) := by
    refine ⟨onQ_ids _ _ _, ?_, ?_, ?_⟩
    · intro t
      rw [pending_onQ]
      split
      · rename_i e; subst e
        split
        · omega
        · rename_i h; rw [pending_closed (by simpa using h)]; omega
      · omega
    · intro h; rw [pending_onQ, if_pos rfl, if_pos h]; omega
    · intro t ht; rw [pending_onQ, if_neg ht]
  by_cases h : k.isOpen sid = true
  · rw [if_pos h]
    cases o with
    | fail => exact absurd rfl ho
    | sent => exact ⟨key.1, key.2.1, fun h => ⟨by simp, key.2.2.1 h⟩, fun h2 => (by rw [h] at h2; cases h2), key.2.2.2⟩
    | again =>
      dsimp only
      split
      · exact ⟨key.1, key.2.1, fun h => ⟨by simp, key.2.2.1 h⟩, fun h2 => (by rw [h] at h2; cases h2), key.2.2.2⟩
      · rename_i h2; exact ⟨.refl k, fun _ => Nat.le_refl _, fun _ => ⟨by simp, by show 1 ≤ k.pending sid; omega⟩, fun _ => rfl, fun _ _ => rfl⟩
  · rw [if_neg h]
    exact ⟨.refl k, fun _ => Nat.le_refl _, fun h2 => absurd h2 h, fun _ => rfl, fun _ _ => rfl⟩

theorem wakeSlot_spec {k : Kern} (hk : KInv k) {os : Os} (hs : ∀ n, os.send n ≠ .fail) {P : Nat → Prop} {h : BwH} (hp : HeldP k P h)
    {w : WakeT} (hf : FdOk k w) (n : Nat) (hn : n < BW_WAITMAX) (hm : P n → Matched h w n) :
    SameIds k (wakeSlot os (k, h, w) n).1 ∧ (∀ t, k.pending t ≤ (wakeSlot os (k, h, w) n).1.pending t) ∧
    HStep P h (wakeSlot os (k, h, w) n).2.1 ∧ FdOk k (wakeSlot os (k, h, w) n).2.2 ∧
    (wakeSlot os (k, h, w) n).2.2.seqno = w.seqno ∧
    (((wakeSlot os (k, h, w) n).2.1 = h ∧ (wakeSlot os (k, h, w) n).2.2 = w) ∨ h.seqno < (wakeSlot os (k, h, w) n).2.1.seqno) ∧
    (∀ m, m ≠ n → (wakeSlot os (k, h, w) n).2.1.wr m = h.wr m ∧ (wakeSlot os (k, h, w) n).2.2.fd m = w.fd m ∧
      (wakeSlot os (k, h, w) n).2.2.name m = w.name m) ∧
    (∀ sid, w.fd n = some sid → k.isOpen sid = true → 1 ≤ (wakeSlot os (k, h, w) n).1.pending sid) ∧
    (∀ t, w.fd n ≠ some t → (wakeSlot os (k, h, w) n).1.pending t = k.pending t) := by
  unfold wakeSlot
  dsimp only
  cases e : w.fd n with
  | none =>
    dsimp only
    exact ⟨.refl k, fun _ => Nat.le_refl _, .refl P h, hf, rfl, .inl ⟨rfl, rfl⟩, fun _ _ => ⟨rfl, rfl, rfl⟩,
      fun sid e2 => (by cases e2), fun _ _ => rfl⟩
  | some sid =>
    dsimp only
    obtain ⟨s1, s2, s3, s4, s5⟩ := sendmsg_spec k sid (os.send n) (hs n)
    generalize sendmsg k sid (os.send n) = z at s1 s2 s3 s4 s5
    obtain ⟨k1, o⟩ := z
    dsimp only at s1 s2 s3 s4 s5
    have good : SameIds k k1 ∧ (∀ t, k.pending t ≤ k1.pending t) ∧ HStep P h h ∧ FdOk k w ∧ w.seqno = w.seqno ∧
        ((h = h ∧ w = w) ∨ h.seqno < h.seqno) ∧
        (∀ m, m ≠ n → h.wr m = h.wr m ∧ w.fd m = w.fd m ∧ w.name m = w.name m) ∧
        (∀ t, some sid = some t → k.isOpen t = true → 1 ≤ k1.pending t) ∧
        (∀ t, some sid ≠ some t → k1.pending t = k.pending t) :=
      ⟨s1, s2, .refl P h, hf, rfl, .inl ⟨rfl, rfl⟩, fun _ _ => ⟨rfl, rfl, rfl⟩, (by rintro t ⟨⟩ h1; exact (s3 h1).2),
        fun t ht => s5 t (fun e => ht (by rw [e]))⟩
    cases o with
    | sent => exact good
    | again => exact good
    | fail =>
      dsimp only
      have hcl : k.isOpen sid = false := by
        cases e2 : k.isOpen sid with
        | false => rfl
        | true => exact absurd rfl (s3 e2).1
      have hh : ¬ P n := by
        intro hPn
        obtain ⟨x, hx, e3, e4⟩ := held_iff.1 (hp n hPn).2
        have hp : (h.wr n).pid ≠ 0 := by rw [← e4]; exact hk.pid x hx
        have := ((hf n sid hn e).2 x hx).1 (by rw [(hm hPn hp).2]; exact e3)
        have : k.isOpen sid = true := isOpen_iff.2 ⟨x, hx, this⟩
        rw [hcl] at this; cases this
      refine ⟨s1, s2, .release hh, ?_, rfl, .inr ?_, ?_, ?_, ?_⟩
      · intro m s hlt e2
        dsimp only at e2 ⊢
        by_cases hmn : m = n
        · subst hmn; rw [upd_same] at e2; cases e2
        · rw [upd_other _ _ hmn] at e2; exact hf m s hlt e2
      · rw [release_seqno]; omega
      · intro m hmn
        rw [upd_other _ _ hmn]
        exact ⟨release_other h hmn, rfl, rfl⟩
      · rintro t ⟨⟩ h1; rw [hcl] at h1; cases h1
      · intro t ht; exact s5 t (fun e => ht (by rw [e]))

theorem wakeLoop_spec {os : Os} (hs : ∀ n, os.send n ≠ .fail) {P : Nat → Prop} : ∀ (ns : List Nat), ns.Nodup → ∀ (k : Kern) (h : BwH) (w : WakeT),
    KInv k → HeldP k P h → FdOk k w → (∀ n ∈ ns, n < BW_WAITMAX) → (∀ n ∈ ns, P n → Matched h w n) → ∀ x, ns.foldl (wakeSlot os) (k, h, w) = x →
    SameIds k x.1 ∧ (∀ t, k.pending t ≤ x.1.pending t) ∧ HStep P h x.2.1 ∧ FdOk k x.2.2 ∧ x.2.2.seqno = w.seqno ∧
    ((x.2.1 = h ∧ x.2.2 = w) ∨ h.seqno < x.2.1.seqno) ∧
    (∀ n ∈ ns, ∀ sid, w.fd n = some sid → k.isOpen sid = true → 1 ≤ x.1.pending sid) ∧
    (∀ t, (∀ n ∈ ns, w.fd n ≠ some t) → x.1.pending t = k.pending t) := by
  intro ns
  induction ns with
  | nil =>
    intro _ k h w _ _ hf _ _ x e
    rw [List.foldl_nil] at e; subst e
    exact ⟨.refl k, fun _ => Nat.le_refl _, .refl P h, hf, rfl, .inl ⟨rfl, rfl⟩, fun n hn => (by cases hn), fun _ _ => rfl⟩
  | cons n ns ih =>
    intro hnd k h w hk hp hf hlt hm x e
    obtain ⟨hn, hnd'⟩ := List.nodup_cons.1 hnd
    rw [List.foldl_cons] at e
    obtain ⟨s1, s2, s3, s4, s5, s6, s7, s8, s9⟩ := wakeSlot_spec hk hs hp hf n (hlt n (by simp)) (hm n (by simp))
    generalize wakeSlot os (k, h, w) n = z at s1 s2 s3 s4 s5 s6 s7 s8 s9 e
    obtain ⟨k1, h1, w1⟩ := z
    dsimp only at s1 s2 s3 s4 s5 s6 s7 s8 s9
    have hm1 : ∀ m ∈ ns, P m → Matched h1 w1 m := by
      intro m hmm hPm
      have hne : m ≠ n := fun e => hn (e ▸ hmm)
      obtain ⟨a1, a2, a3⟩ := s7 m hne
      have := hm m (by simp [hmm]) hPm
      unfold Matched at this ⊢
      rw [a1, a2, a3]; exact this
    obtain ⟨t1, t2, t3, t4, t5, t6, t7, t8⟩ := ih hnd' k1 h1 w1 (hk.same s1) ((hp.step s3).same s1) (s4.same s1) (fun m hm => hlt m (by simp [hm])) hm1 x e
    refine ⟨s1.trans t1, fun t => Nat.le_trans (s2 t) (t2 t), s3.trans t3, t4.same s1.symm, t5.trans s5, ?_, ?_, ?_⟩
    · have l1 := s3.le; have l2 := t3.le
      rcases s6 with ⟨e1, e2⟩ | e1
      · rcases t6 with ⟨f1, f2⟩ | f1
        · exact .inl ⟨f1.trans e1, f2.trans e2⟩
        · rw [e1] at f1; exact .inr f1
      · right; omega
    · intro m hmm sid e1 e2
      rcases List.mem_cons.1 hmm with rfl | hmm
      · exact Nat.le_trans (s8 sid e1 e2) (t2 sid)
      · have hne : m ≠ n := fun e => hn (e ▸ hmm)
        exact t7 m hmm sid (by rw [(s7 m hne).2.1]; exact e1) (by rw [s1.isOpen]; exact e2)
    · intro t ht
      rw [t8 t, s9 t (ht n (by simp))]
      intro m hmm
      have hne : m ≠ n := fun e => hn (e ▸ hmm)
      rw [(s7 m hne).2.1]; exact ht m (by simp [hmm])

theorem bw_wake_spec {k : Kern} (hk : KInv k) {os : Os} (hs : ∀ n, os.send n ≠ .fail) {P : Nat → Prop} {h : BwH} (hp : HeldP k P h) {w : WakeT} (hi : WakeInv P k h w) :
    ∀ x, bw_wake k os h w = x →
    SameIds k x.1 ∧ (∀ t, k.pending t ≤ x.1.pending t) ∧ HStep P h x.2.1 ∧ WakeInv P x.1 x.2.1 x.2.2.1 ∧
    (x.2.2.2 = true → ∀ n, P n → ∀ y ∈ k.socks, y.name = (h.wr n).name → y.pid = (h.wr n).pid → 1 ≤ x.1.pending y.sid) := by
  intro x e
  unfold bw_wake at e
  obtain ⟨s1, s2, s3⟩ := bw_sync_spec hk os hp hi
  generalize bw_sync k os h w = z at s1 s2 s3 e
  obtain ⟨h1, w1, ok⟩ := z
  dsimp only at s1 s2 s3
  cases ok with
  | false =>
    dsimp only at e; subst e
    exact ⟨.refl k, fun _ => Nat.le_refl _, s1, s2, fun e => (by cases e)⟩
  | true =>
    dsimp only at e
    have hm := s2.cur (s3 rfl)
    obtain ⟨t1, t2, t3, t4, t5, t6, t7, -⟩ := wakeLoop_spec hs _ range_nodup k h1 w1 hk (hp.step s1) s2.fd (fun n hn => List.mem_range.1 hn)
      (fun n _ => hm n) _ rfl
    generalize (List.range BW_WAITMAX).foldl (wakeSlot os) (k, h1, w1) = y at t1 t2 t3 t4 t5 t6 t7 e
    obtain ⟨k2, h2, w2⟩ := y
    dsimp only at t1 t2 t3 t4 t5 t6 t7 e
    subst e
    refine ⟨t1, t2, s1.trans t3, ⟨t4.same t1, ?_, ?_⟩, ?_⟩
    · show w2.seqno ≤ h2.seqno
      rw [t5]; exact Int.le_trans s2.le t3.le
    · intro e2
      have e2 : w2.seqno = h2.seqno := e2
      rcases t6 with ⟨f1, f2⟩ | f1
      · rw [f1, f2]; exact hm
      · rw [t5, s3 rfl] at e2; omega
    · intro _ n hn x hx e1 e2
      have hh : h1.wr n = h.wr n := s1.prot n hn
      have hp0 : (h1.wr n).pid ≠ 0 := by rw [hh, ← e2]; exact hk.pid x hx
      obtain ⟨⟨sid, f1⟩, f2⟩ := hm n hn hp0
      have : x.sid = sid := ((s2.fd n sid (hp n hn).1 f1).2 x hx).1 (by rw [f2, hh]; exact e1)
      rw [this]
      exact t7 n (List.mem_range.2 (hp n hn).1) sid f1 (isOpen_iff.2 ⟨x, hx, this⟩)

end Shr
