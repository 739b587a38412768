import Verif.Model.BwKill
import Verif.Proof.BwInv
import Verif.Proof.Hoare
/-! # Calls of the block/wake library cut short by the death of the caller -/
namespace Shr

/-- From `x` to `y` nothing changed for other processes than `p`: their sockets, their slots (`P`) and their queues, which can
only grow. -/
structure Spared (P : Nat → Prop) (p : Nat) (x y : Shared) : Prop where
  next : x.1.next ≤ y.1.next
  ids : (y.1.exit p).socks.map Sock.id = (x.1.exit p).socks.map Sock.id
  step : HStep P x.2 y.2
  pend : ∀ s ∈ x.1.socks, s.pid ≠ p → x.1.pending s.sid ≤ y.1.pending s.sid
  kinv : KInv x.1 → KInv y.1

theorem mem_of_ids {k k' : Kern} {p : Nat} (h : (k'.exit p).socks.map Sock.id = (k.exit p).socks.map Sock.id) {s : Sock} (hs : s ∈ k.socks)
    (hp : s.pid ≠ p) : ∃ t ∈ k'.socks, t.sid = s.sid ∧ t.name = s.name ∧ t.pid = s.pid := by
  have : s.id ∈ (k'.exit p).socks.map Sock.id := by
    rw [h]; exact List.mem_map_of_mem (List.mem_filter.2 ⟨hs, by simpa using hp⟩)
  obtain ⟨t, ht, e⟩ := List.mem_map.1 this
  simp only [Sock.id, Prod.mk.injEq] at e
  exact ⟨t, (List.mem_filter.1 ht).1, e⟩

theorem Spared.refl (P : Nat → Prop) (p : Nat) (x : Shared) : Spared P p x x := ⟨Nat.le_refl _, rfl, .refl P _, fun _ _ _ => Nat.le_refl _, id⟩

theorem Spared.trans {P : Nat → Prop} {p : Nat} {x y z : Shared} (h : Spared P p x y) (g : Spared P p y z) : Spared P p x z := by
  refine ⟨Nat.le_trans h.next g.next, g.ids.trans h.ids, h.step.trans g.step, ?_, fun k => g.kinv (h.kinv k)⟩
  intro s hs hp
  obtain ⟨t, ht, e1, e2, e3⟩ := mem_of_ids h.ids hs hp
  have := g.pend t ht (by rw [e3]; exact hp)
  rw [e1] at this
  exact Nat.le_trans (h.pend s hs hp) this

/-- A change of the handle alone. -/
theorem Spared.hd {P : Nat → Prop} {p : Nat} {k : Kern} {h h' : BwH} (s : HStep P h h') : Spared P p (k, h) (k, h') :=
  ⟨Nat.le_refl _, rfl, s, fun _ _ _ => Nat.le_refl _, id⟩

/-- A change of the queues alone, not taking anything from other processes. -/
theorem Spared.queues {P : Nat → Prop} {p : Nat} {k k' : Kern} {h : BwH} (s : SameIds k k')
    (hq : ∀ x ∈ k.socks, x.pid ≠ p → k.pending x.sid ≤ k'.pending x.sid) : Spared P p (k, h) (k', h) := by
  refine ⟨Nat.le_of_eq s.next.symm, ?_, .refl P h, hq, fun k => k.same s⟩
  have key : ∀ (l l' : List Sock), l'.map Sock.id = l.map Sock.id →
      (l'.filter fun s => s.pid != p).map Sock.id = (l.filter fun s => s.pid != p).map Sock.id := by
    intro l
    induction l with
    | nil => intro l' e; rw [List.map_nil, List.map_eq_nil_iff] at e; rw [e]
    | cons a l ih =>
      intro l' e
      cases l' with
      | nil => simp at e
      | cons b l' =>
        simp only [List.map_cons, List.cons.injEq] at e
        have hb : b.pid = a.pid := by
          have := e.1; simp only [Sock.id, Prod.mk.injEq] at this; exact this.2.2
        simp only [List.filter_cons, hb]
        split
        · simp only [List.map_cons, e.1, ih l' e.2]
        · exact ih l' e.2
  exact key _ _ s.ids

/-- What a fragment does to others: every state in it and its result are reached from its beginning. -/
def Tame {α : Type} (P : Nat → Prop) (p : Nat) (m : M Shared α) (x : Shared) (Q : α → Shared → Prop) : Prop :=
  Ok m x (Spared P p x) (fun a y => Spared P p x y ∧ Q a y)

namespace Tame
variable {α β : Type} {P : Nat → Prop} {p : Nat}

theorem bind {m : M Shared α} {f : α → M Shared β} {x : Shared} {Q : β → Shared → Prop}
    (h : Tame P p m x (fun a y => Tame P p (f a) y Q)) : Tame P p (m >>= f) x Q :=
  Ok.bind (Ok.mono h (fun _ t => t) fun _ _ hy => Ok.mono hy.2 (fun _ t => hy.1.trans t) fun _ _ hz => ⟨hy.1.trans hz.1, hz.2⟩)

theorem pure {a : α} {x : Shared} {Q : α → Shared → Prop} (h : Q a x) : Tame P p (Pure.pure a) x Q := Ok.pure ⟨.refl P p x, h⟩

theorem get {f : Shared → M Shared β} {x : Shared} {Q : β → Shared → Prop} (h : Tame P p (f x) x Q) : Tame P p (M.get >>= f) x Q := Ok.get_bind h

theorem store {g : Shared → Shared} {x : Shared} {Q : Unit → Shared → Prop} (ht : Spared P p x (g x)) (h : Q () (g x)) : Tame P p (M.store g) x Q :=
  Ok.store (.refl P p x) ⟨ht, h⟩

theorem mono {m : M Shared α} {x : Shared} {Q Q' : α → Shared → Prop} (h : Tame P p m x Q) (hq : ∀ a y, Spared P p x y → Q a y → Q' a y) :
    Tame P p m x Q' := Ok.mono h (fun _ t => t) fun a y hy => ⟨hy.1, hq a y hy.1 hy.2⟩

/-- All points of the run. -/
theorem points {m : M Shared α} {x : Shared} {Q : α → Shared → Prop} (h : Tame P p m x Q) {y : Shared} (hy : y ∈ (m x).points) : Spared P p x y := by
  obtain ⟨a, z, e, hz⟩ := h.res
  have htr := h.tr
  unfold Run.points Run.final at hy
  generalize m x = r at e hy htr
  obtain ⟨t, res⟩ := r
  dsimp only at e hy htr
  subst e
  simp only [Option.toList_some, List.mem_append, List.mem_singleton] at hy
  rcases hy with hy | rfl
  · exact htr y hy
  · exact hz.1

/-- The result of the run. -/
theorem result {m : M Shared α} {x : Shared} {Q : α → Shared → Prop} (h : Tame P p m x Q) : ∃ a z, (m x).res = .ok a z ∧ Q a z := by
  obtain ⟨a, z, e, hz⟩ := h.res
  exact ⟨a, z, e, hz.2⟩

theorem putPid {n v : Nat} {k : Kern} {h : BwH} (hn : ¬ P n) {Q : Unit → Shared → Prop}
    (hq : Q () (k, { h with wr := upd h.wr n { h.wr n with pid := v } })) : Tame P p (putPid n v) (k, h) Q := by
  refine store (.hd ⟨Int.le_refl _, fun m hm => ?_⟩) hq
  dsimp only; rw [upd_other]; rintro rfl; exact hn hm

theorem putName {n v : Nat} {k : Kern} {h : BwH} (hn : ¬ P n) {Q : Unit → Shared → Prop}
    (hq : Q () (k, { h with wr := upd h.wr n { h.wr n with name := v } })) : Tame P p (putName n v) (k, h) Q := by
  refine store (.hd ⟨Int.le_refl _, fun m hm => ?_⟩) hq
  dsimp only; rw [upd_other]; rintro rfl; exact hn hm

theorem incSeq {k : Kern} {h : BwH} {Q : Unit → Shared → Prop} (hq : Q () (k, { h with seqno := h.seqno + 1 })) : Tame P p incSeq (k, h) Q := by
  refine store (.hd ⟨?_, fun _ _ => rfl⟩) hq
  show h.seqno ≤ h.seqno + 1
  omega

theorem releaseM {n : Nat} {k : Kern} {h : BwH} (hn : ¬ P n) {Q : Unit → Shared → Prop} (hq : Q () (k, h.release n)) :
    Tame P p (releaseM n) (k, h) Q := bind (putPid hn (incSeq hq))

theorem pruneSlotM {os : Os} {n : Nat} {k : Kern} {h : BwH} (hp : HeldP k P h) :
    Tame P p (pruneSlotM os n) (k, h) (fun _ y => y = (k, pruneSlot k os h n)) := by
  unfold Shr.pruneSlotM pruneSlot
  apply get
  dsimp only
  split
  · exact pure rfl
  · split
    · rename_i h2
      exact releaseM (hp.not (has_pid_zero h2)) rfl
    · exact pure rfl

theorem pruneLoopM {os : Os} {k : Kern} : ∀ (ns : List Nat) {h : BwH}, HeldP k P h →
    Tame P p (pruneLoopM os ns) (k, h) (fun _ y => y = (k, ns.foldl (pruneSlot k os) h))
  | [], _, _ => pure rfl
  | n :: ns, h, hp => by
    unfold Shr.pruneLoopM
    refine bind (mono (pruneSlotM hp) ?_)
    rintro _ _ ht rfl
    exact mono (pruneLoopM ns (hp.step ht.step)) fun _ _ _ e => e

theorem pruneM {os : Os} {k : Kern} {h : BwH} (hp : HeldP k P h) : Tame P p (pruneM os) (k, h) (fun _ y => y = (k, prune_handle k os h)) :=
  pruneLoopM _ hp

theorem openSocketM {os : Os} {k : Kern} {h : BwH} (hp : HeldP k P h) {w : WakeT} {n : Nat} (hw : w.name n = (h.wr n).name) :
    Tame P p (openSocketM os w n) (k, h) (fun r y => y.1 = k ∧ (y.2, r) = open_socket k os h w n) := by
  unfold Shr.openSocketM open_socket
  apply get
  dsimp only
  split
  · exact pure ⟨rfl, rfl⟩
  · cases connect k (w.name n) (os.connOk n) with
    | some sid => exact pure ⟨rfl, rfl⟩
    | none =>
      dsimp only
      split
      · rename_i h2
        rw [hw] at h2
        exact bind (releaseM (hp.not (has_pid_zero h2)) (pure ⟨rfl, rfl⟩))
      · exact pure ⟨rfl, rfl⟩

theorem syncSlotM {os : Os} {k : Kern} {h : BwH} (hp : HeldP k P h) {w : WakeT} {n : Nat} :
    Tame P p (syncSlotM os w n) (k, h) (fun r y => y.1 = k ∧ (y.2, r) = syncSlot k os h w n) := by
  unfold Shr.syncSlotM syncSlot
  apply get
  dsimp only
  generalize (if w.fd n ≠ none ∧ ((h.wr n).pid = 0 ∨ (h.wr n).name ≠ w.name n) then { w with fd := upd w.fd n none } else w) = w1
  split
  · exact openSocketM hp (by dsimp only; rw [upd_same])
  · exact pure ⟨rfl, rfl⟩

theorem syncLoopM {os : Os} {k : Kern} : ∀ (ns : List Nat) {h : BwH} {w : WakeT}, HeldP k P h →
    Tame P p (syncLoopM os ns w) (k, h) (fun r y => y.1 = k ∧ (y.2, r) = syncLoop k os ns h w)
  | [], _, _, _ => pure ⟨rfl, rfl⟩
  | n :: ns, h, w, hp => by
    unfold Shr.syncLoopM syncLoop
    refine bind (mono (syncSlotM hp) ?_)
    rintro ⟨w1, ok⟩ ⟨k1, h1⟩ ht ⟨e1, e2⟩
    dsimp only at e1 e2
    subst e1
    rw [← e2]
    cases ok with
    | false => exact pure ⟨rfl, rfl⟩
    | true => exact syncLoopM ns (hp.step ht.step)

theorem syncM {os : Os} {k : Kern} {h : BwH} {w : WakeT} (hp : HeldP k P h) :
    Tame P p (syncM os w) (k, h) (fun r y => y.1 = k ∧ (y.2, r) = bw_sync k os h w) := by
  unfold Shr.syncM bw_sync
  apply get
  dsimp only
  split
  · exact pure ⟨rfl, rfl⟩
  · refine bind (mono (syncLoopM _ hp) ?_)
    rintro ⟨w1, ok⟩ ⟨k1, h1⟩ ht ⟨e1, e2⟩
    dsimp only at e1 e2
    subst e1
    rw [← e2]
    cases ok with
    | false => exact pure ⟨rfl, rfl⟩
    | true => exact get (pure ⟨rfl, rfl⟩)

theorem openWakeM {os : Os} {k : Kern} {h : BwH} (hp : HeldP k P h) :
    Tame P p (openWakeM os) (k, h) (fun r y => y.1 = k ∧ (y.2, r) = bw_open_wake k os h) := by
  unfold Shr.openWakeM bw_open_wake
  split
  · exact pure ⟨rfl, rfl⟩
  · refine bind (mono (pruneM hp) ?_)
    intro _ y ht e
    generalize prune_handle k os h = h' at e
    subst e
    refine bind (mono (syncM (hp.step ht.step)) ?_)
    rintro ⟨w1, ok⟩ ⟨k1, h1⟩ ht ⟨e1, e2⟩
    dsimp only at e1 e2
    subst e1
    rw [← e2]
    cases ok <;> exact pure ⟨rfl, rfl⟩

theorem sysK {f : Kern → Kern} {k : Kern} {h : BwH} (ht : Spared P p (k, h) (f k, h)) {Q : Unit → Shared → Prop} (hq : Q () (f k, h)) :
    Tame P p (sysK f) (k, h) Q := store ht hq

theorem nameM {n : Nat} (hn : ¬ P n) {k : Kern} : ∀ (gs : List Nat) {v : Nat} {h : BwH},
    Tame P p (nameM n gs v) (k, h) (fun _ y => y = (k, { h with wr := upd h.wr n { h.wr n with name := v } }))
  | [], v, h => by unfold Shr.nameM; exact putName hn rfl
  | g :: gs, v, h => by
    unfold Shr.nameM
    refine bind (putName hn (mono (nameM hn gs) ?_))
    rintro _ _ _ rfl
    dsimp only
    rw [upd_same]
    congr 2
    funext j
    unfold upd
    split <;> rfl

end Tame

theorem pending_append {k : Kern} {x : Sock} {s : Sock} (hs : s ∈ k.socks) (n : Nat) :
    Kern.pending ⟨k.socks ++ [x], n⟩ s.sid = k.pending s.sid := by
  unfold Kern.pending
  dsimp only
  rw [List.find?_append]
  cases e : k.socks.find? (fun t => t.sid == s.sid) with
  | none => rw [List.find?_eq_none] at e; exact absurd (e s hs) (by simp)
  | some y => rfl

theorem KInv.bind {k : Kern} (hk : KInv k) {name p : Nat} (hp : p ≠ 0) (hname : ∀ x ∈ k.socks, x.name ≠ name) :
    KInv { socks := k.socks ++ [⟨k.next, name, p, 0⟩], next := k.next + 1 } := by
  have hmem : ∀ x, x ∈ k.socks ++ [(⟨k.next, name, p, 0⟩ : Sock)] ↔ x ∈ k.socks ∨ x = ⟨k.next, name, p, 0⟩ := by intro x; simp
  have hnd : ((k.socks ++ [(⟨k.next, name, p, 0⟩ : Sock)]).map Sock.sid).Nodup := by
    simp only [List.map_append, List.map_cons, List.map_nil]
    rw [List.nodup_append]
    refine ⟨hk.nodup, by simp, ?_⟩
    intro x hx y hy
    simp only [List.mem_singleton] at hy
    obtain ⟨z, hz, rfl⟩ := List.mem_map.1 hx
    have := hk.lt z hz
    omega
  refine ⟨fun x hx y hy e => eq_of_key hnd hx hy e, ?_, ?_, ?_, hnd⟩
  · intro x hx y hy e
    rcases (hmem x).1 hx with hx | rfl <;> rcases (hmem y).1 hy with hy | rfl
    · exact hk.names x hx y hy e
    · exact absurd e (hname x hx)
    · exact absurd e.symm (hname y hy)
    · rfl
  · intro x hx
    rcases (hmem x).1 hx with hx | rfl
    · exact Nat.lt_succ_of_lt (hk.lt x hx)
    · exact Nat.lt_succ_self _
  · intro x hx
    rcases (hmem x).1 hx with hx | rfl
    · exact hk.pid x hx
    · exact hp

theorem torn_bind {P : Nat → Prop} {p name : Nat} (hp : p ≠ 0) {k : Kern} (hname : ∀ x ∈ k.socks, x.name ≠ name) {h : BwH} :
    Spared P p (k, h) (({ socks := k.socks ++ [⟨k.next, name, p, 0⟩], next := k.next + 1 } : Kern), h) := by
  refine ⟨Nat.le_succ _, ?_, .refl P h, ?_, fun hk => KInv.bind hk hp hname⟩
  · unfold Kern.exit; dsimp only; rw [List.filter_append]; simp
  · intro s hs _
    exact Nat.le_of_eq (pending_append hs _).symm

theorem torn_close {P : Nat → Prop} {p sid : Nat} {k : Kern} {h : BwH} (hs : ∀ x ∈ k.socks, x.sid = sid → x.pid = p) :
    Spared P p (k, h) (k.close sid, h) := by
  refine ⟨Nat.le_refl _, ?_, .refl P h, ?_, fun hk => hk.filter _⟩
  · unfold Kern.exit Kern.close; dsimp only
    rw [List.filter_filter]
    congr 1
    apply List.filter_congr
    intro x hx
    by_cases e : x.sid = sid
    · have := hs x hx e; simp [e, this]
    · simp [e]
  · intro s hs1 hp
    have hne : s.sid ≠ sid := fun e => hp (hs s hs1 e)
    unfold Kern.close Kern.pending
    dsimp only
    rw [List.find?_filter]
    have : (k.socks.find? fun a => decide ((a.sid != sid) = true ∧ (a.sid == s.sid) = true)) = k.socks.find? fun t => t.sid == s.sid := by
      congr 1
      funext t
      by_cases e : t.sid = s.sid
      · simp [e, hne]
      · simp [e]
    simp only [Bool.decide_and, Bool.decide_eq_true] at this ⊢
    rw [this]
    exact Nat.le_refl _


namespace Tame
variable {P : Nat → Prop} {p : Nat}

theorem makeSocketM (hp0 : p ≠ 0) {os : Os} {gs : List Nat} {n : Nat} (hn : ¬ P n) {k : Kern} {h : BwH} :
    Tame P p (makeSocketM os p gs n) (k, h) (fun r y => (y.1, y.2, r) = make_socket k os p h n) := by
  unfold Shr.makeSocketM make_socket
  apply get
  dsimp only
  split
  · exact pure rfl
  · split
    · exact pure rfl
    · rename_i hl
      refine bind (sysK (torn_bind hp0 (lookup_none (by simpa using hl))) (bind (mono (nameM hn gs) ?_)))
      rintro _ _ _ rfl
      exact pure rfl

theorem reserveM (hp0 : p ≠ 0) {os : Os} {gs : List Nat} {k : Kern} (hk : KInv k) {h : BwH} (hp : HeldP k P h) :
    Tame P p (reserveM os p gs) (k, h) (fun r y => (y.1, y.2, r) = bw_reserve k os p h) := by
  unfold Shr.reserveM bw_reserve
  apply get
  dsimp only
  cases ef : freeSlot h with
  | none => exact pure rfl
  | some n =>
    dsimp only
    have hn : ¬ P n := by
      apply hp.not
      rw [(freeSlot_some ef).2]
      cases e : k.held 0 (h.wr n).name with
      | false => rfl
      | true =>
        obtain ⟨x, hx, _, e2⟩ := held_iff.1 e
        exact absurd e2 (hk.pid x hx)
    refine bind (mono (makeSocketM hp0 hn) ?_)
    rintro r ⟨k1, h1⟩ _ e
    rw [← e]
    cases r with
    | none => exact pure rfl
    | some sid => exact bind (putPid hn (bind (incSeq (pure rfl))))

/-- The socket of a new waiter is its own; its slot is not one of those that are protected. -/
theorem reserve_own {os : Os} {k : Kern} (hk : KInv k) {h : BwH} (hp : HeldP k P h) {k1 : Kern} {h1 : BwH} {n sid : Nat}
    (e : (k1, h1, some (n, sid)) = bw_reserve k os p h) : ¬ P n ∧ ∀ x ∈ k1.socks, x.sid = sid → x.pid = p := by
  unfold bw_reserve at e
  cases ef : freeSlot h with
  | none => rw [ef] at e; cases e
  | some m =>
    rw [ef] at e
    dsimp only at e
    unfold make_socket at e
    split at e
    · rename_i e2; split at e2
      · cases e
      · cases e
    · rename_i e2; split at e2
      · cases e2
      · split at e2
        · cases e2
        · cases e2; cases e
          constructor
          · apply hp.not
            rw [(freeSlot_some ef).2]
            cases e : k.held 0 (h.wr n).name with
            | false => rfl
            | true =>
              obtain ⟨x, hx, _, e2⟩ := held_iff.1 e
              exact absurd e2 (hk.pid x hx)
          · intro x hx he
            rcases List.mem_append.1 hx with hx | hx
            · have := hk.lt x hx; omega
            · rw [List.mem_singleton.1 hx]

theorem undoM {n sid : Nat} (hn : ¬ P n) {k : Kern} {h : BwH} (hs : ∀ x ∈ k.socks, x.sid = sid → x.pid = p) :
    Tame P p (undoM n sid) (k, h) (fun r y => (y.1, y.2, r) = bwOpenUndo k h n sid) :=
  bind (putPid hn (bind (sysK (torn_close hs) (pure rfl))))

theorem openWaitM (hp0 : p ≠ 0) {os : Os} {gs : List Nat} {k : Kern} (hk : KInv k) {h : BwH} (hp : HeldP k P h) :
    Tame P p (openWaitM os p gs) (k, h) (fun r y => (y.1, y.2, r) = bw_open_wait k os p h) := by
  unfold Shr.openWaitM bw_open_wait
  split
  · exact pure rfl
  · refine bind (mono (pruneM hp) ?_)
    intro _ y ht e
    generalize prune_handle k os h = h' at e
    subst e
    have hp' : HeldP k P h' := hp.step ht.step
    refine bind (mono (reserveM hp0 hk hp') ?_)
    rintro r ⟨k1, h1⟩ ht ew
    rw [← ew]
    cases r with
    | none => exact pure rfl
    | some r =>
      obtain ⟨n, sid⟩ := r
      obtain ⟨hn, hs⟩ := reserve_own hk hp' ew
      dsimp only
      apply get
      dsimp only
      cases connect k1 (h1.wr n).name os.selfOk with
      | none => exact undoM hn hs
      | some t =>
        dsimp only
        split
        · exact undoM hn hs
        · exact pure rfl

theorem closeWaitM {k : Kern} {h : BwH} {w : WaitT} (hn : ¬ P w.slotno) (hs : ∀ x ∈ k.socks, x.sid = w.sid → x.pid = p) :
    Tame P p (closeWaitM w) (k, h) (fun _ y => y = bw_close_wait k h w) :=
  bind (sysK (torn_close hs) (bind (putPid hn (incSeq rfl))))

theorem wakeSlotM {k : Kern} (hk : KInv k) {os : Os} (hs : ∀ n, os.send n ≠ .fail) {h : BwH} (hp : HeldP k P h)
    {w : WakeT} (hf : FdOk k w) (n : Nat) (hn : n < BW_WAITMAX) (hm : P n → Matched h w n) :
    Tame P p (wakeSlotM os w n) (k, h) (fun r y => (y.1, y.2, r) = wakeSlot os (k, h, w) n) := by
  unfold Shr.wakeSlotM wakeSlot
  dsimp only
  cases e : w.fd n with
  | none => exact pure rfl
  | some sid =>
    dsimp only
    obtain ⟨s1, s2, s3, s4, s5⟩ := sendmsg_spec k sid (os.send n) (hs n)
    apply get
    refine bind (sysK (.queues s1 fun x _ _ => s2 x.sid) ?_)
    dsimp only
    generalize sendmsg k sid (os.send n) = z at s1 s2 s3 s4 s5
    obtain ⟨k1, o⟩ := z
    dsimp only at s1 s2 s3 s4 s5 ⊢
    cases o with
    | sent => exact pure rfl
    | again => exact pure rfl
    | fail =>
      have hcl : k.isOpen sid = false := by
        cases e2 : k.isOpen sid with
        | false => rfl
        | true => exact absurd rfl (s3 e2).1
      have hh : ¬ P n := by
        intro hPn
        obtain ⟨x, hx, e3, e4⟩ := held_iff.1 (hp n hPn).2
        have hp : (h.wr n).pid ≠ 0 := by rw [← e4]; exact hk.pid x hx
        have := ((hf n sid hn e).2 x hx).1 (by rw [(hm hPn hp).2]; exact e3)
        have : k.isOpen sid = true := isOpen_iff.2 ⟨x, hx, this⟩
        rw [hcl] at this; cases this
      exact bind (incSeq (bind (putPid hh (pure rfl))))

theorem wakeLoopM {os : Os} (hs : ∀ n, os.send n ≠ .fail) : ∀ (ns : List Nat), ns.Nodup → ∀ {k : Kern} {h : BwH} {w : WakeT},
    KInv k → HeldP k P h → FdOk k w → (∀ n ∈ ns, n < BW_WAITMAX) → (∀ n ∈ ns, P n → Matched h w n) →
    Tame P p (wakeLoopM os ns w) (k, h) (fun r y => (y.1, y.2, r) = ns.foldl (wakeSlot os) (k, h, w))
  | [], _, _, _, _, _, _, _, _, _ => pure rfl
  | n :: ns, hnd, k, h, w, hk, hp, hf, hlt, hm => by
    obtain ⟨hn, hnd'⟩ := List.nodup_cons.1 hnd
    unfold Shr.wakeLoopM
    rw [List.foldl_cons]
    refine bind (mono (wakeSlotM hk hs hp hf n (hlt n (by simp)) (hm n (by simp))) ?_)
    rintro w1 ⟨k1, h1⟩ ht e
    obtain ⟨s1, s2, s3, s4, s5, s6, s7, s8, s9⟩ := wakeSlot_spec hk hs hp hf n (hlt n (by simp)) (hm n (by simp))
    rw [← e] at s1 s2 s3 s4 s5 s6 s7 s8 s9 ⊢
    dsimp only at s1 s2 s3 s4 s5 s6 s7 s8 s9
    refine wakeLoopM hs ns hnd' (hk.same s1) ((hp.step s3).same s1) (s4.same s1) (fun m hm => hlt m (by simp [hm])) ?_
    intro m hmm hPm
    have hne : m ≠ n := fun e => hn (e ▸ hmm)
    obtain ⟨a1, a2, a3⟩ := s7 m hne
    have := hm m (by simp [hmm]) hPm
    unfold Matched at this ⊢
    rw [a1, a2, a3]; exact this

theorem wakeM {k : Kern} (hk : KInv k) {os : Os} (hs : ∀ n, os.send n ≠ .fail) {h : BwH} (hp : HeldP k P h) {w : WakeT}
    (hi : WakeInv P k h w) : Tame P p (wakeM os w) (k, h) (fun r y => (y.1, y.2, r) = bw_wake k os h w) := by
  unfold Shr.wakeM bw_wake
  obtain ⟨s1, s2, s3⟩ := bw_sync_spec hk os hp hi
  refine bind (mono (syncM hp) ?_)
  rintro ⟨w1, ok⟩ ⟨k1, h1⟩ ht ⟨e1, e2⟩
  dsimp only at e1 e2
  subst e1
  rw [← e2] at s1 s2 s3 ⊢
  dsimp only at s1 s2 s3
  cases ok with
  | false => exact pure rfl
  | true =>
    dsimp only
    refine bind (mono (wakeLoopM hs _ range_nodup hk (hp.step s1) s2.fd (fun n hn => List.mem_range.1 hn)
      (fun n _ => s2.cur (s3 rfl) n)) ?_)
    rintro w2 ⟨k2, h2⟩ ht e3
    rw [← e3]
    exact pure rfl

/-- Calls on the caller's own queue. -/
theorem ownQueue {f : Kern → Kern} {g : Kern → Bool} {k : Kern} {h : BwH} (hid : SameIds k (f k))
    (hq : ∀ x ∈ k.socks, x.pid ≠ p → (f k).pending x.sid = k.pending x.sid) :
    Tame P p (do let x ← M.get; Shr.sysK f; Pure.pure (g x.1)) (k, h) (fun r y => y = (f k, h) ∧ r = g k) :=
  get (bind (sysK (.queues hid fun x hx hp => Nat.le_of_eq (hq x hx hp).symm) (pure ⟨rfl, rfl⟩)))

end Tame

/-! ## The whole system -/

/-- Slot `n` of handle `a` belongs to an open waiter of another process than `p`. -/
def BSys.TakenBy (s : BSys) (p a n : Nat) : Prop := ∃ i pid w, s.ts i = some (.wait a pid w) ∧ w.slotno = n ∧ pid ≠ p

theorem BInv.heldBy {s : BSys} (hi : BInv s) (p a : Nat) : HeldP s.kern (s.TakenBy p a) (s.hd a) := by
  rintro n ⟨i, pid, w, e, h1, -⟩
  exact hi.heldP a n ⟨i, pid, w, e, h1⟩

theorem BInv.wakerBy {s : BSys} (hi : BInv s) (p : Nat) {i a q : Nat} {w : WakeT} (e : s.ts i = some (.wake a q w)) :
    WakeInv (s.TakenBy p a) s.kern (s.hd a) w :=
  (hi.wakers i a q w e).anti fun _ ⟨i, pid, w, e, h1, _⟩ => ⟨i, pid, w, e, h1⟩

/-- The run of a call: all its points leave others alone, and it ends as the atomic step does. -/
theorem Tame.summary {α : Type} {P : Nat → Prop} {p : Nat} {m : M Shared α} {x : Shared} {Q : α → Shared → Prop} {z : Shared} (h : Tame P p m x Q)
    (hz : ∀ a y, Q a y → y = z) : (∀ y ∈ (m x).points, Spared P p x y) ∧ (m x).points.getLast? = some z := by
  refine ⟨fun y hy => h.points hy, ?_⟩
  obtain ⟨a, y, e, hq⟩ := h.result
  have := hz a y hq
  subst this
  unfold Run.points Run.final
  generalize m x = r at e
  obtain ⟨t, res⟩ := r
  dsimp only at e
  subst e
  simp

theorem BInv.points {s : BSys} (hi : BInv s) {op : BOp} (hc : s.Clean op) {gs : List Nat} {a p : Nat} {pts : List Shared}
    (e : s.points gs op = some (a, p, pts)) :
    (∀ x ∈ pts, Spared (s.TakenBy p a) p (s.kern, s.hd a) x) ∧ pts.getLast? = some ((s.step op).1.kern, (s.step op).1.hd a) := by
  have own : ∀ {i b q : Nat} {w : WaitT}, s.ts i = some (.wait b q w) → ¬ s.TakenBy q b w.slotno ∧ (∀ x ∈ s.kern.socks, x.sid = w.sid → x.pid = q) := by
    intro i b q w ei
    constructor
    · rintro ⟨j, q', v, ej, h1, h2⟩
      have := hi.slots ej ei h1
      subst this
      rw [ei] at ej; cases ej; exact h2 rfl
    · intro x hx hxs
      obtain ⟨y, hy, f1, f2, f3⟩ := (hi.reg i b q w ei).sock
      rw [hi.k.sids x hx y hy (hxs.trans f1.symm)]; exact f3
  cases op with
  | openWake i b q os =>
    unfold BSys.points at e
    dsimp only at e
    split at e
    · cases e
    · rename_i hn
      cases e
      refine (Tame.openWakeM (p := p) (os := os) (hi.heldBy p a)).summary ?_
      rintro r ⟨k1, h1⟩ ⟨e1, e2⟩
      dsimp only at e1 e2
      subst e1
      unfold BSys.step
      dsimp only
      rw [if_neg hn]
      unfold BSys.openWake
      rw [← e2]
      cases r <;> (dsimp only; rw [upd_same])
  | openWait i b q os =>
    unfold BSys.points at e
    dsimp only at e
    split at e
    · cases e
    · rename_i hn
      cases e
      refine (Tame.openWaitM (p := p) (fun h => hn (.inr h)) (os := os) (gs := gs) hi.k (hi.heldBy p a)).summary ?_
      rintro r ⟨k1, h1⟩ e2
      dsimp only at e2
      unfold BSys.step
      dsimp only
      rw [if_neg hn]
      unfold BSys.openWait
      rw [← e2]
      cases r <;> (dsimp only; rw [upd_same])
  | close i =>
    unfold BSys.points at e
    dsimp only at e
    unfold BSys.step BSys.close
    dsimp only
    cases ei : s.ts i with
    | none => rw [ei] at e; cases e
    | some t =>
      rw [ei] at e
      cases t with
      | wake b q w =>
        cases e
        refine ⟨?_, rfl⟩
        intro x hx
        rw [List.mem_singleton.1 hx]; exact .refl _ _ _
      | wait b q w =>
        cases e
        obtain ⟨o1, o2⟩ := own ei
        refine (Tame.closeWaitM (h := s.hd a) o1 o2).summary ?_
        rintro r y rfl
        dsimp only
        rw [upd_same]
  | wake i os =>
    unfold BSys.points at e
    dsimp only at e
    unfold BSys.step BSys.wake
    dsimp only
    cases ei : s.ts i with
    | none => rw [ei] at e; cases e
    | some t =>
      rw [ei] at e
      cases t with
      | wait b q w => cases e
      | wake b q w =>
        cases e
        refine (Tame.wakeM hi.k hc (hi.heldBy p a) (hi.wakerBy p ei)).summary ?_
        rintro ⟨w1, ok⟩ ⟨k1, h1⟩ e2
        dsimp only
        rw [← e2]
        dsimp only
        rw [upd_same]
  | force i want os =>
    unfold BSys.points at e
    dsimp only at e
    unfold BSys.step BSys.force
    dsimp only
    cases ei : s.ts i with
    | none => rw [ei] at e; cases e
    | some t =>
      rw [ei] at e
      cases t with
      | wake b q w => cases e
      | wait b q w =>
        cases e
        obtain ⟨o1, o2⟩ := own ei
        have hself := (hi.reg i a p w ei).self
        refine (Tame.ownQueue (f := fun k => (bw_force k os w want).1) (g := fun k => (bw_force k os w want).2)
          (bw_force_ids _ _ _ _) ?_).summary ?_
        · intro x hx hp
          have hne : x.sid ≠ w.sid := fun h => hp (o2 x hx h)
          unfold bw_force
          repeat' split
          all_goals first | rfl | (dsimp only; rw [pending_onQ, if_neg (by first | exact hne | (rw [hself]; exact hne))])
        · rintro r y ⟨rfl, -⟩; rfl
  | ready i os =>
    unfold BSys.points at e
    dsimp only at e
    unfold BSys.step BSys.ready
    dsimp only
    cases ei : s.ts i with
    | none => rw [ei] at e; cases e
    | some t =>
      rw [ei] at e
      cases t with
      | wake b q w => cases e
      | wait b q w =>
        cases e
        obtain ⟨o1, o2⟩ := own ei
        refine (Tame.ownQueue (f := fun k => (bw_ready_ul k os w).1) (g := fun k => (bw_ready_ul k os w).2)
          (bw_ready_ids _ _ _) ?_).summary ?_
        · intro x hx hp
          have hne : x.sid ≠ w.sid := fun h => hp (o2 x hx h)
          unfold bw_ready_ul
          split
          · rfl
          · dsimp only; rw [pending_onQ, if_neg hne]
        · rintro r y ⟨rfl, -⟩; rfl
  | exit q => cases e

theorem exit_ts_wake {s : BSys} {p i b q : Nat} {w : WakeT} (e : (s.exit p).ts i = some (.wake b q w)) : s.ts i = some (.wake b q w) ∧ q ≠ p := by
  unfold BSys.exit at e; dsimp only at e
  cases e2 : s.ts i with
  | none => rw [e2] at e; cases e
  | some t =>
    rw [e2] at e
    cases t <;> dsimp only at e <;> split at e <;> cases e
    rename_i h; exact ⟨rfl, h⟩

theorem exit_ts_wait {s : BSys} {p i b q : Nat} {w : WaitT} (e : (s.exit p).ts i = some (.wait b q w)) : s.ts i = some (.wait b q w) ∧ q ≠ p := by
  unfold BSys.exit at e; dsimp only at e
  cases e2 : s.ts i with
  | none => rw [e2] at e; cases e
  | some t =>
    rw [e2] at e
    cases t <;> dsimp only at e <;> split at e <;> cases e
    rename_i h; exact ⟨rfl, h⟩

theorem KInv.later {k : Kern} (h : KInv k) {n : Nat} (hn : k.next ≤ n) : KInv { k with next := n } :=
  ⟨h.sids, h.names, fun x hx => Nat.lt_of_lt_of_le (h.lt x hx) hn, h.pid, h.nodup⟩

/-- After the death of a process inside a call everything is in order for the others. -/
theorem BInv.torn {s : BSys} (hi : BInv s) {p a : Nat} {x : Shared} (h : Spared (s.TakenBy p a) p (s.kern, s.hd a) x) :
    BInv (BSys.exit ⟨x.1, upd s.hd a x.2, s.ts⟩ p) := by
  obtain ⟨k1, h1⟩ := x
  have hsame : SameIds { s.kern.exit p with next := k1.next } (k1.exit p) := ⟨rfl, h.ids⟩
  have hnext : s.kern.next ≤ k1.next := h.next
  have hstep : ∀ b, HStep (s.TakenBy p b) (s.hd b) (upd s.hd a h1 b) := by
    intro b; unfold upd; split
    · rename_i e; subst e; exact h.step
    · exact .refl _ _
  have htk : ∀ b n, BSys.Taken (BSys.exit ⟨k1, upd s.hd a h1, s.ts⟩ p) b n → s.TakenBy p b n := by
    rintro b n ⟨i, q, w, e, e2⟩
    obtain ⟨f1, f2⟩ := exit_ts_wait e
    exact ⟨i, q, w, f1, e2, f2⟩
  refine ⟨((hi.k.filter _).later hnext).same hsame, ?_, ?_, ?_, ?_⟩
  · intro b; exact Int.le_trans (hi.seq b) (hstep b).le
  · intro i b q w e
    obtain ⟨e1, e2⟩ := exit_ts_wake e
    have hw := (hi.wakerBy p e1).hstep (hstep b)
    refine WakeInv.anti ⟨?_, hw.le, hw.cur⟩ (htk b)
    refine FdOk.same hsame ?_
    intro n sid hn e3
    obtain ⟨g1, g2⟩ := hw.fd n sid hn e3
    exact ⟨Nat.lt_of_lt_of_le g1 hnext, fun y hy => g2 y (List.mem_filter.1 hy).1⟩
  · intro i b q w e
    obtain ⟨e1, e2⟩ := exit_ts_wait e
    have r := (hi.reg i b q w e1).hstep (hstep b) ⟨i, q, w, e1, rfl, e2⟩
    obtain ⟨y, hy, f1, f2, f3⟩ := r.sock
    obtain ⟨z, hz, g1, g2, g3⟩ := mem_of_ids h.ids hy (by rw [f3]; exact e2)
    exact ⟨r.lt, r.self, r.own, z, List.mem_filter.2 ⟨hz, by rw [g3, f3]; simpa using e2⟩, g1.trans f1, g2.trans f2, g3.trans f3⟩
  · intro j1 j2 b q v b' q' v' e1 e2
    exact hi.dist j1 j2 b q v b' q' v' (exit_ts_wait e1).1 (exit_ts_wait e2).1

theorem BInv.killed {s s' : BSys} (hi : BInv s) {op : BOp} (hc : s.Clean op) (h : s.Killed op s') : BInv s' := by
  obtain ⟨gs, a, p, pts, x, e, hx, rfl⟩ := h
  exact hi.torn ((hi.points hc e).1 x hx)

theorem BSys.KReach.inv {s : BSys} (h : s.KReach) : BInv s := by
  induction h with
  | init => exact BInv.init
  | step op _ hc ih => exact ih.step op hc
  | kill op _ hc hk ih => exact ih.killed hc hk

end Shr
