import Mathlib.Data.List.Perm.Subperm
import Verif.Proof.Conc
import Verif.Proof.Flow
import Verif.Proof.Demo
import Verif.Props.History
/-!
# Concurrent calls are linearizable (C31)

`Model/Conc.lean`: processes interleave single loads and stores; only the file lock orders them.  Seen
from outside (calls and returns), every execution is one of the sequential histories that the other
properties are about.
-/
namespace Shr

/-! ## Specification vocabulary -/

/-- The calls process `p` made, in order. -/
def callsOf (p : Nat) (E : List Event) : List Op :=
  E.filterMap fun e => match e with
    | .call q op => if q = p then some op else none
    | .ret _ _ _ => none

/-- The calls of process `p` that returned, with their results, in order. -/
def retsOf (p : Nat) (E : List Event) : List (Op × Out) :=
  E.filterMap fun e => match e with
    | .call _ _ => none
    | .ret q op o => if q = p then some (op, o) else none

/-- The entries of a list of calls that belong to process `p`. -/
def logOf (p : Nat) (L : List (Nat × Op × Out)) : List (Op × Out) :=
  L.filterMap fun e => if e.1 = p then some e.2 else none

/-- The list of calls `L` (with results) is a *linearization* of the events `E` on a fresh ring:
executed one after the other the calls return these results, and at every moment (every split of `E`),
`L` has a split such that each process's returned calls are among its calls before the split, and those
are among the calls it had made.  So the order of `L` respects the order of calls that do not overlap, and
each call takes effect once, between its call and its return. -/
structure Linearization (a : InitArgs) (E : List Event) (L : List (Nat × Op × Out)) : Prop where
  legal : ∃ s, (Sys.init a).run (L.map (·.2.1)) = .ok (s, L.map (·.2.2))
  times : ∀ E1 E2, E = E1 ++ E2 → ∃ L1 L2, L = L1 ++ L2 ∧
    ∀ p, retsOf p E1 <+: logOf p L1 ∧ (logOf p L1).map Prod.fst <+: callsOf p E1
  all : ∀ p, retsOf p E <+: logOf p L ∧ (logOf p L).map Prod.fst <+: callsOf p E

/-! ## Invariant -/

/-- Process `p`'s calls, returns and linearized calls agree with its state. -/
def PAgree (c : Conc) (p : Nat) : Prop :=
  match c.procs p with
  | .idle => retsOf p c.events = logOf p c.log ∧ callsOf p c.events = (logOf p c.log).map Prod.fst
  | .want op | .inside op _ =>
    retsOf p c.events = logOf p c.log ∧ callsOf p c.events = (logOf p c.log).map Prod.fst ++ [op]
  | .leaving op o =>
    logOf p c.log = retsOf p c.events ++ [(op, o)] ∧ callsOf p c.events = (logOf p c.log).map Prod.fst

/-- `p` is executing `op` (has called and not yet left the critical section). -/
def PSt.active (op : Op) : PSt → Prop
  | .want op' => op' = op
  | .inside op' _ => op' = op
  | _ => False

structure CInv (own : Nat → Nat) (a : InitArgs) (c : Conc) (s : Sys) : Prop where
  run : (Sys.init a).run (c.log.map (·.2.1)) = .ok (s, c.log.map (·.2.2))
  hs : s.hs = c.hs
  free : c.lock = none → s.ring = c.ring
  holder : ∀ p op rest, c.procs p = .inside op rest →
    c.lock = some p ∧ (opSec (c.hs op.handle) op s.ring).res = (rest.denote c.ring).res
  held : ∀ p, c.lock = some p → ∃ op rest, c.procs p = .inside op rest
  own : ∀ p op, (c.procs p).active op → own op.handle = p
  agree : ∀ p, PAgree c p
  times : ∀ E1 E2, c.events = E1 ++ E2 → ∃ L1 L2, c.log = L1 ++ L2 ∧
    ∀ p, retsOf p E1 <+: logOf p L1 ∧ (logOf p L1).map Prod.fst <+: callsOf p E1

theorem callsOf_append (p : Nat) (E F : List Event) : callsOf p (E ++ F) = callsOf p E ++ callsOf p F := by
  simp [callsOf, List.filterMap_append]
theorem retsOf_append (p : Nat) (E F : List Event) : retsOf p (E ++ F) = retsOf p E ++ retsOf p F := by
  simp [retsOf, List.filterMap_append]
theorem logOf_append (p : Nat) (E F : List (Nat × Op × Out)) : logOf p (E ++ F) = logOf p E ++ logOf p F := by
  simp [logOf, List.filterMap_append]

theorem PAgree.cut {c : Conc} {p : Nat} (h : PAgree c p) :
    retsOf p c.events <+: logOf p c.log ∧ (logOf p c.log).map Prod.fst <+: callsOf p c.events := by
  unfold PAgree at h
  split at h
  · rw [h.1, h.2]; exact ⟨List.prefix_rfl, List.prefix_rfl⟩
  · rw [h.1, h.2]; exact ⟨List.prefix_rfl, List.prefix_append _ _⟩
  · rw [h.1, h.2]; exact ⟨List.prefix_rfl, List.prefix_append _ _⟩
  · rw [h.2]; exact ⟨h.1 ▸ List.prefix_append _ _, List.prefix_rfl⟩

/-- A new event at the end. -/
theorem times_event {E : List Event} {L : List (Nat × Op × Out)} {e : Event}
    (h : ∀ E1 E2, E = E1 ++ E2 → ∃ L1 L2, L = L1 ++ L2 ∧
      ∀ p, retsOf p E1 <+: logOf p L1 ∧ (logOf p L1).map Prod.fst <+: callsOf p E1)
    (hn : ∀ p, retsOf p (E ++ [e]) <+: logOf p L ∧ (logOf p L).map Prod.fst <+: callsOf p (E ++ [e])) :
    ∀ E1 E2, E ++ [e] = E1 ++ E2 → ∃ L1 L2, L = L1 ++ L2 ∧
      ∀ p, retsOf p E1 <+: logOf p L1 ∧ (logOf p L1).map Prod.fst <+: callsOf p E1 := by
  intro E1 E2 he
  rcases List.eq_nil_or_concat E2 with rfl | ⟨F, f, rfl⟩
  · rw [List.append_nil] at he
    subst he
    exact ⟨L, [], by simp, hn⟩
  · rw [List.concat_eq_append, ← List.append_assoc] at he
    have := List.append_inj' he rfl
    exact h E1 F this.1

theorem times_log {E : List Event} {L : List (Nat × Op × Out)} {x : Nat × Op × Out}
    (h : ∀ E1 E2, E = E1 ++ E2 → ∃ L1 L2, L = L1 ++ L2 ∧
      ∀ p, retsOf p E1 <+: logOf p L1 ∧ (logOf p L1).map Prod.fst <+: callsOf p E1) :
    ∀ E1 E2, E = E1 ++ E2 → ∃ L1 L2, L ++ [x] = L1 ++ L2 ∧
      ∀ p, retsOf p E1 <+: logOf p L1 ∧ (logOf p L1).map Prod.fst <+: callsOf p E1 := by
  intro E1 E2 he
  obtain ⟨L1, L2, h1, h2⟩ := h E1 E2 he
  exact ⟨L1, L2 ++ [x], by rw [h1, List.append_assoc], h2⟩

theorem run_snoc_ok {a : InitArgs} {L : List (Nat × Op × Out)} {s s' : Sys} {p : Nat} {op : Op} {o : Out}
    (h : (Sys.init a).run (L.map (·.2.1)) = .ok (s, L.map (·.2.2))) (hs : s.step op = .ok (s', o)) :
    (Sys.init a).run ((L ++ [(p, op, o)]).map (·.2.1)) = .ok (s', (L ++ [(p, op, o)]).map (·.2.2)) := by
  rw [List.map_append, List.map_append, sys_run_append, h]
  simp [Sys.run, hs]

theorem CInv.step {own : Nat → Nat} {a : InitArgs} {c d : Conc} {s : Sys} (h : CInv own a c s)
    (st : Conc.Step own c d) : ∃ s', CInv own a d s' := by
  cases st with
  | @call p op h1 h2 h3 =>
    have hag : ∀ q, PAgree { c with procs := upd c.procs p (.want op), events := c.events ++ [.call p op] } q := by
      intro q
      have := h.agree q
      unfold PAgree at this ⊢
      dsimp only
      rw [callsOf_append, retsOf_append]
      by_cases e : q = p
      · subst e
        rw [upd_same]
        rw [h1] at this
        simp only [callsOf, retsOf, List.filterMap_cons, List.filterMap_nil, if_true, List.append_nil] at this ⊢
        exact ⟨this.1, by rw [this.2]⟩
      · rw [upd_other _ _ e]
        have e' : ¬ p = q := fun x => e x.symm
        simp only [callsOf, retsOf, List.filterMap_cons, List.filterMap_nil, if_neg e', List.append_nil] at this ⊢
        exact this
    refine ⟨s, ⟨h.run, h.hs, h.free, ?_, ?_, ?_, hag, times_event h.times fun q => (hag q).cut⟩⟩
    · intro q op' rest hq
      by_cases e : q = p
      · subst e; dsimp only at hq; rw [upd_same] at hq; cases hq
      · dsimp only at hq; rw [upd_other _ _ e] at hq; exact h.holder q op' rest hq
    · intro q hq
      obtain ⟨op', rest, hr⟩ := h.held q hq
      refine ⟨op', rest, ?_⟩
      dsimp only
      rw [upd_other _ _ (by rintro rfl; rw [h1] at hr; cases hr)]
      exact hr
    · intro q op' hq
      dsimp only at hq
      by_cases e : q = p
      · subst e; rw [upd_same] at hq; cases hq; exact h2
      · rw [upd_other _ _ e] at hq; exact h.own q op' hq
  | @acquire p op prog h1 h2 h3 =>
    refine ⟨s, ⟨h.run, h.hs, fun x => (by cases x), ?_, ?_, ?_, ?_, h.times⟩⟩
    · intro q op' rest hq
      dsimp only at hq ⊢
      by_cases e : q = p
      · subst e
        rw [upd_same] at hq
        cases hq
        exact ⟨rfl, by rw [h3, h.free h2]⟩
      · rw [upd_other _ _ e] at hq
        have := (h.holder q op' rest hq).1
        rw [h2] at this; cases this
    · intro q hq
      cases hq
      exact ⟨op, prog, upd_same _ _ _⟩
    · intro q op' hq
      dsimp only at hq
      by_cases e : q = p
      · subst e; rw [upd_same] at hq; cases hq; exact h.own q op (by rw [h1]; rfl)
      · rw [upd_other _ _ e] at hq; exact h.own q op' hq
    · intro q
      have := h.agree q
      unfold PAgree at this ⊢
      dsimp only
      by_cases e : q = p
      · subst e; rw [upd_same]; rw [h1] at this; exact this
      · rw [upd_other _ _ e]; exact this
  | @load p op k h1 =>
    refine ⟨s, ⟨h.run, h.hs, h.free, ?_, ?_, ?_, ?_, h.times⟩⟩
    · intro q op' rest hq
      dsimp only at hq ⊢
      by_cases e : q = p
      · subst e
        rw [upd_same] at hq
        cases hq
        exact h.holder q op (.load k) h1
      · rw [upd_other _ _ e] at hq; exact h.holder q op' rest hq
    · intro q hq
      dsimp only
      by_cases e : q = p
      · subst e; rw [upd_same]; exact ⟨_, _, rfl⟩
      · rw [upd_other _ _ e]; exact h.held q hq
    · intro q op' hq
      dsimp only at hq
      by_cases e : q = p
      · subst e; rw [upd_same] at hq; cases hq; exact h.own q op (by rw [h1]; rfl)
      · rw [upd_other _ _ e] at hq; exact h.own q op' hq
    · intro q
      have := h.agree q
      unfold PAgree at this ⊢
      dsimp only
      by_cases e : q = p
      · subst e; rw [upd_same]; rw [h1] at this; exact this
      · rw [upd_other _ _ e]; exact this
  | @store p op f k h1 =>
    have hl := (h.holder p op _ h1).1
    refine ⟨s, ⟨h.run, h.hs, fun x => by (dsimp only at x; rw [hl] at x; cases x), ?_, ?_, ?_, ?_, h.times⟩⟩
    · intro q op' rest hq
      dsimp only at hq ⊢
      by_cases e : q = p
      · subst e
        rw [upd_same] at hq
        cases hq
        exact h.holder q op _ h1
      · rw [upd_other _ _ e] at hq
        have := (h.holder q op' rest hq).1
        rw [hl] at this
        cases this
        exact absurd rfl e
    · intro q hq
      dsimp only
      by_cases e : q = p
      · subst e; rw [upd_same]; exact ⟨_, _, rfl⟩
      · rw [upd_other _ _ e]; exact h.held q hq
    · intro q op' hq
      dsimp only at hq
      by_cases e : q = p
      · subst e; rw [upd_same] at hq; cases hq; exact h.own q op (by rw [h1]; rfl)
      · rw [upd_other _ _ e] at hq; exact h.own q op' hq
    · intro q
      have := h.agree q
      unfold PAgree at this ⊢
      dsimp only
      by_cases e : q = p
      · subst e; rw [upd_same]; rw [h1] at this; exact this
      · rw [upd_other _ _ e]; exact this
  | @release p op l o h1 =>
    obtain ⟨hl, hr⟩ := h.holder p op _ h1
    have hstep : s.step op = .ok (⟨c.ring, upd s.hs op.handle l⟩, o) := by
      rw [opSec_step, h.hs]
      unfold exec
      rw [hr]
      rfl
    refine ⟨_, ⟨run_snoc_ok h.run hstep, by dsimp only; rw [h.hs], fun _ => rfl, ?_, ?_, ?_, ?_, times_log h.times⟩⟩
    · intro q op' rest hq
      dsimp only at hq ⊢
      by_cases e : q = p
      · subst e; rw [upd_same] at hq; cases hq
      · rw [upd_other _ _ e] at hq
        have := (h.holder q op' rest hq).1
        rw [hl] at this
        cases this
        exact absurd rfl e
    · intro q hq; cases hq
    · intro q op' hq
      dsimp only at hq
      by_cases e : q = p
      · subst e; rw [upd_same] at hq; cases hq
      · rw [upd_other _ _ e] at hq; exact h.own q op' hq
    · intro q
      have := h.agree q
      unfold PAgree at this ⊢
      dsimp only
      rw [logOf_append]
      by_cases e : q = p
      · subst e
        rw [upd_same]
        rw [h1] at this
        simp [logOf] at this ⊢
        exact ⟨this.1.symm, this.2⟩
      · rw [upd_other _ _ e]
        have e' : ¬ p = q := fun x => e x.symm
        simp only [logOf, List.filterMap_cons, List.filterMap_nil, if_neg e', List.append_nil] at this ⊢
        exact this
  | @«local» p op l o h1 h2 =>
    have hex : ∀ r, (opSec (c.hs op.handle) op r).res = .ok (l, o) r := by intro r; rw [← h2]; rfl
    have hstep : s.step op = .ok (⟨s.ring, upd s.hs op.handle l⟩, o) := by
      rw [opSec_step, h.hs]
      unfold exec
      rw [hex]
    have hown := h.own p op (by rw [h1]; rfl)
    refine ⟨_, ⟨run_snoc_ok h.run hstep, by dsimp only; rw [h.hs], h.free, ?_, ?_, ?_, ?_, times_log h.times⟩⟩
    · intro q op' rest hq
      dsimp only at hq ⊢
      by_cases e : q = p
      · subst e; rw [upd_same] at hq; cases hq
      · rw [upd_other _ _ e] at hq
        have ho := h.own q op' (by rw [hq]; rfl)
        rw [upd_other _ _ (by intro x; rw [x, hown] at ho; exact e ho.symm)]
        exact h.holder q op' rest hq
    · intro q hq
      obtain ⟨op', rest, hr⟩ := h.held q hq
      refine ⟨op', rest, ?_⟩
      dsimp only
      rw [upd_other _ _ (by rintro rfl; rw [h1] at hr; cases hr)]
      exact hr
    · intro q op' hq
      dsimp only at hq
      by_cases e : q = p
      · subst e; rw [upd_same] at hq; cases hq
      · rw [upd_other _ _ e] at hq; exact h.own q op' hq
    · intro q
      have := h.agree q
      unfold PAgree at this ⊢
      dsimp only
      rw [logOf_append]
      by_cases e : q = p
      · subst e
        rw [upd_same]
        rw [h1] at this
        simp [logOf] at this ⊢
        exact ⟨this.1.symm, this.2⟩
      · rw [upd_other _ _ e]
        have e' : ¬ p = q := fun x => e x.symm
        simp only [logOf, List.filterMap_cons, List.filterMap_nil, if_neg e', List.append_nil] at this ⊢
        exact this
  | @ret p op o h1 =>
    have hag : ∀ q, PAgree { c with procs := upd c.procs p .idle, events := c.events ++ [.ret p op o] } q := by
      intro q
      have := h.agree q
      unfold PAgree at this ⊢
      dsimp only
      rw [callsOf_append, retsOf_append]
      by_cases e : q = p
      · subst e
        rw [upd_same]
        rw [h1] at this
        simp only [callsOf, retsOf, List.filterMap_cons, List.filterMap_nil, if_true, List.append_nil] at this ⊢
        exact ⟨this.1.symm, this.2⟩
      · rw [upd_other _ _ e]
        have e' : ¬ p = q := fun x => e x.symm
        simp only [callsOf, retsOf, List.filterMap_cons, List.filterMap_nil, if_neg e', List.append_nil] at this ⊢
        exact this
    refine ⟨s, ⟨h.run, h.hs, h.free, ?_, ?_, ?_, hag, times_event h.times fun q => (hag q).cut⟩⟩
    · intro q op' rest hq
      by_cases e : q = p
      · subst e; dsimp only at hq; rw [upd_same] at hq; cases hq
      · dsimp only at hq; rw [upd_other _ _ e] at hq; exact h.holder q op' rest hq
    · intro q hq
      obtain ⟨op', rest, hr⟩ := h.held q hq
      refine ⟨op', rest, ?_⟩
      dsimp only
      rw [upd_other _ _ (by rintro rfl; rw [h1] at hr; cases hr)]
      exact hr
    · intro q op' hq
      dsimp only at hq
      by_cases e : q = p
      · subst e; rw [upd_same] at hq; cases hq
      · rw [upd_other _ _ e] at hq; exact h.own q op' hq

theorem CInv.init (own : Nat → Nat) (a : InitArgs) : CInv own a (Conc.init a) (Sys.init a) where
  run := rfl
  hs := rfl
  free := fun _ => rfl
  holder := fun _ _ _ h => by cases h
  held := fun _ h => by cases h
  own := fun _ _ h => by cases h
  agree := fun _ => ⟨rfl, rfl⟩
  times := fun E1 E2 h => by
    have h : [] = E1 ++ E2 := h
    obtain ⟨rfl, rfl⟩ := List.append_eq_nil_iff.mp h.symm
    exact ⟨[], [], rfl, fun p => ⟨List.prefix_rfl, List.prefix_rfl⟩⟩

theorem CInv.reach {own : Nat → Nat} {a : InitArgs} {c : Conc} (h : Conc.Steps own (Conc.init a) c) :
    ∃ s, CInv own a c s := by
  induction h with
  | refl => exact ⟨_, CInv.init own a⟩
  | step h1 h2 ih => obtain ⟨s, hs⟩ := ih; exact hs.step h2

/-! ## C31 -/

/-- **C31**: whatever the interleaving of the processes' single loads and stores, what they have seen is
explained by the calls taking effect one at a time, in an order that respects real time; and whenever no
process is inside a critical section, ring and handles are exactly as after that sequential history. -/
theorem C31_linearizable {own : Nat → Nat} {a : InitArgs} {c : Conc} (h : Conc.Steps own (Conc.init a) c) :
    ∃ L, Linearization a c.events L ∧
      (c.lock = none → (Sys.init a).run (L.map (·.2.1)) = .ok (⟨c.ring, c.hs⟩, L.map (·.2.2))) := by
  obtain ⟨s, i⟩ := CInv.reach h
  refine ⟨c.log, ⟨⟨s, i.run⟩, i.times, fun p => (i.agree p).cut⟩, fun hl => ?_⟩
  rw [i.run]
  cases s
  have h1 := i.hs
  have h2 := i.free hl
  dsimp only at h1 h2
  rw [h1, h2]

/-- Every call that has returned is in the linearization, with the result it returned. -/
theorem Linearization.complete {a : InitArgs} {E : List Event} {L : List (Nat × Op × Out)} (h : Linearization a E L)
    {p : Nat} {op : Op} {o : Out} (he : Event.ret p op o ∈ E) : (p, op, o) ∈ L := by
  have h1 : (op, o) ∈ retsOf p E := by
    unfold retsOf
    rw [List.mem_filterMap]
    exact ⟨_, he, by simp⟩
  have h2 := (h.all p).1.subset h1
  unfold logOf at h2
  rw [List.mem_filterMap] at h2
  obtain ⟨x, hx, hx'⟩ := h2
  by_cases e : x.1 = p
  · rw [if_pos e] at hx'
    obtain ⟨q, y, z⟩ := x
    cases hx'
    dsimp only at e
    subst e
    exact hx
  · rw [if_neg e] at hx'; cases hx'

/-! ### No deadlock -/

/-- All calls made, by whichever process. -/
def opsOf (E : List Event) : List Op :=
  E.filterMap fun e => match e with
    | .call _ op => some op
    | .ret _ _ _ => none

/-- The same with the process. -/
def pairsOf (E : List Event) : List (Nat × Op) :=
  E.filterMap fun e => match e with
    | .call p op => some (p, op)
    | .ret _ _ _ => none

theorem pairsOf_map (E : List Event) : (pairsOf E).map Prod.snd = opsOf E := by
  unfold pairsOf opsOf
  rw [List.map_filterMap]
  congr 1
  funext e
  cases e <;> rfl

theorem count_pairs (E : List Event) (p : Nat) (op : Op) : (pairsOf E).count (p, op) = (callsOf p E).count op := by
  induction E with
  | nil => rfl
  | cons e E ih =>
    cases e with
    | call q op' =>
      simp only [pairsOf, callsOf, List.filterMap_cons] at ih ⊢
      by_cases e : q = p
      · subst e
        rw [if_pos rfl, List.count_cons, List.count_cons, ih]
        by_cases e2 : op' = op <;> simp [e2]
      · rw [if_neg e, List.count_cons, ih]
        simp [e]
    | ret q op' o => simpa [pairsOf, callsOf] using ih

theorem count_log (L : List (Nat × Op × Out)) (p : Nat) (op : Op) :
    (L.map fun e => (e.1, e.2.1)).count (p, op) = ((logOf p L).map Prod.fst).count op := by
  induction L with
  | nil => rfl
  | cons e L ih =>
    obtain ⟨q, op', o⟩ := e
    simp only [logOf, List.filterMap_cons, List.map_cons] at ih ⊢
    by_cases e : q = p
    · subst e
      rw [if_pos rfl, List.map_cons, List.count_cons, List.count_cons, ih]
      by_cases e2 : op' = op <;> simp [e2]
    · rw [if_neg e, List.count_cons, ih]
      simp [e]

theorem log_subperm {E : List Event} {L : List (Nat × Op × Out)}
    (h : ∀ p, (logOf p L).map Prod.fst <+: callsOf p E) : (L.map (·.2.1)).Subperm (opsOf E) := by
  have h1 : (L.map fun e => (e.1, e.2.1)).Subperm (pairsOf E) := by
    rw [List.subperm_ext_iff]
    rintro ⟨p, op⟩ _
    rw [count_pairs, count_log]
    exact List.Sublist.count_le _ (h p).sublist
  obtain ⟨zs, hp, hs⟩ := h1
  refine ⟨zs.map Prod.snd, ?_, by rw [← pairsOf_map]; exact hs.map _⟩
  have h2 := hp.map Prod.snd
  rw [List.map_map] at h2
  exact h2

theorem offered_perm {xs ys : List Op} (h : xs.Perm ys) : offered xs = offered ys := by
  induction h with
  | nil => rfl
  | cons x _ ih => rw [offered_cons, ih, ← offered_cons]
  | swap x y l => rw [offered_cons y (x :: l), offered_cons x l, offered_cons x (y :: l), offered_cons y l]; omega
  | trans _ _ ih1 ih2 => rw [ih1, ih2]

theorem offered_sublist {xs ys : List Op} (h : xs.Sublist ys) : offered xs ≤ offered ys := by
  induction h with
  | slnil => exact Nat.le_refl _
  | cons x _ ih => rw [offered_cons x]; omega
  | @cons_cons l₁ l₂ x _ ih => rw [offered_cons x l₁, offered_cons x l₂]; omega

/-- Validity does not depend on the order of calls, nor on calls that are left out. -/
theorem Valid.sub {a : InitArgs} {xs ys : List Op} (v : Valid a ys) (h : xs.Subperm ys) : Valid a xs where
  init := v.init
  wf := fun op ho => v.wf op (h.subset ho)
  count := fun hf => by
    obtain ⟨zs, hp, hs⟩ := h
    refine Nat.lt_of_le_of_lt (Nat.mul_le_mul ?_ ?_) (v.count hf)
    · rw [← hp.length_eq]; exact hs.length_le
    · rw [← offered_perm hp]; exact offered_sublist hs

theorem Conc.Steps.trans {own : Nat → Nat} {c d e : Conc} (h1 : Conc.Steps own c d) (h2 : Conc.Steps own d e) :
    Conc.Steps own c e := by
  induction h2 with
  | refl => exact h1
  | step _ st ih => exact .step ih st

theorem upd_upd' {α : Type} (f : Nat → α) (k : Nat) (u v : α) : upd (upd f k u) k v = upd f k v := by
  funext j; unfold upd; split <;> rfl

/-- A process that holds the lock, left alone, leaves its critical section. -/
theorem holder_runs {own : Nat → Nat} {p : Nat} {op : Op} {l : Life Handle Unit} {o : Out} {r' : Ring} :
    ∀ (rest : Prog Ring (Life Handle Unit × Out)) (c : Conc), c.procs p = .inside op rest →
      (rest.denote c.ring).res = .ok (l, o) r' →
      ∃ c', Conc.Steps own c c' ∧ c'.lock = none ∧ c'.procs = upd c.procs p (.leaving op o) ∧ c'.events = c.events := by
  intro rest
  induction rest with
  | ret x =>
    intro c hp hr
    obtain ⟨l', o'⟩ := x
    simp only [Prog.denote] at hr
    cases hr
    exact ⟨_, .step (.refl _) (.release hp), rfl, rfl, rfl⟩
  | load k ih =>
    intro c hp hr
    obtain ⟨c', h1, h2, h3, h4⟩ := ih c.ring { c with procs := upd c.procs p (.inside op (k c.ring)) } (upd_same _ _ _) hr
    exact ⟨c', (Conc.Steps.step (.refl _) (.load hp)).trans h1, h2, by rw [h3, upd_upd'], h4⟩
  | store f k ih =>
    intro c hp hr
    obtain ⟨c', h1, h2, h3, h4⟩ := ih { c with ring := f c.ring, procs := upd c.procs p (.inside op k) } (upd_same _ _ _) hr
    exact ⟨c', (Conc.Steps.step (.refl _) (.store hp)).trans h1, h2, by rw [h3, upd_upd'], h4⟩
  | abort => intro c hp hr; cases hr
  | fail f => intro c hp hr; cases f <;> cases hr

/-- The call that is inside its critical section will not abort, access memory out of bounds or loop. -/
theorem CInv.holder_ok {own : Nat → Nat} {a : InitArgs} {c : Conc} {s : Sys} (i : CInv own a c s)
    (v : Valid a (opsOf c.events)) {p : Nat} {op : Op} {rest : Prog Ring (Life Handle Unit × Out)}
    (hp : c.procs p = .inside op rest) : ∃ l o r, (rest.denote c.ring).res = .ok (l, o) r := by
  have hsub : ((c.log ++ [(p, op, Out.misuse)]).map (·.2.1)).Subperm (opsOf c.events) := by
    apply log_subperm
    intro q
    rw [logOf_append]
    by_cases e : q = p
    · subst e
      have := i.agree q
      unfold PAgree at this
      rw [hp] at this
      rw [this.2]
      simp [logOf]
    · have e' : ¬ p = q := fun x => e x.symm
      have := (i.agree q).cut.2
      simpa [logOf, e'] using this
  have v' := v.sub hsub
  rw [List.map_append] at v'
  obtain ⟨s', e, _⟩ := v'.reach
  rw [sys_run_append, i.run] at e
  dsimp only [List.map, Sys.run] at e
  rw [opSec_step, i.hs] at e
  unfold exec at e
  obtain ⟨_, hr⟩ := i.holder p op rest hp
  rw [← hr]
  revert e
  cases (opSec (c.hs op.handle) op s.ring).res with
  | ok x r => intro _; obtain ⟨l, o⟩ := x; exact ⟨l, o, r, rfl⟩
  | abort r => intro e; cases e
  | ub => intro e; cases e
  | hang => intro e; cases e

/-- **C31**, progress: if the calls made so far are well formed, then in every reachable state every
process that is in a call can return from it: there is no deadlock, and nobody inside a critical section
fails to leave it.  (A call on a full or empty ring returns `blocked`: it has left the critical section and
waits to be woken up.) -/
theorem C31_no_deadlock {own : Nat → Nat} {a : InitArgs} {c : Conc} (h : Conc.Steps own (Conc.init a) c)
    (v : Valid a (opsOf c.events)) {p : Nat} (hp : c.procs p ≠ .idle) :
    ∃ c' op o, Conc.Steps own c c' ∧ c'.procs p = .idle ∧ c'.events = c.events ++ [.ret p op o] := by
  -- returning
  have fin : ∀ d : Conc, d.events = c.events → ∀ op o, d.procs p = .leaving op o → Conc.Steps own c d →
      ∃ c' op o, Conc.Steps own c c' ∧ c'.procs p = .idle ∧ c'.events = c.events ++ [.ret p op o] :=
    fun d he op o hd hs => ⟨_, op, o, .step hs (.ret hd), upd_same _ _ _, by dsimp only; rw [he]⟩
  -- leaving
  have ins : ∀ d : Conc, d.events = c.events → Conc.Steps own c d → ∀ op rest, d.procs p = .inside op rest →
      ∃ c' op o, Conc.Steps own c c' ∧ c'.procs p = .idle ∧ c'.events = c.events ++ [.ret p op o] := by
    intro d he hs op rest hd
    obtain ⟨s, i⟩ := CInv.reach (h.trans hs)
    obtain ⟨l, o, r, hr⟩ := i.holder_ok (by rw [he]; exact v) hd
    obtain ⟨c', h1, _, h3, h4⟩ := holder_runs (own := own) rest d hd hr
    exact fin c' (h4.trans he) op o (by rw [h3, upd_same]) (hs.trans h1)
  -- entering
  have ent : ∀ d : Conc, d.events = c.events → Conc.Steps own c d → ∀ op, d.procs p = .want op → d.lock = none →
      ∃ c' op o, Conc.Steps own c c' ∧ c'.procs p = .idle ∧ c'.events = c.events ++ [.ret p op o] := by
    intro d he hs op hd hl
    obtain ⟨P, hP⟩ := opSec_prog (d.hs op.handle) op
    exact ins { d with procs := upd d.procs p (.inside op P), lock := some p } he (.step hs (.acquire hd hl hP)) op P (upd_same _ _ _)
  cases hc : c.procs p with
  | idle => exact absurd hc hp
  | leaving op o => exact fin c rfl op o hc (.refl c)
  | inside op rest => exact ins c rfl (.refl c) op rest hc
  | want op =>
    cases hl : c.lock with
    | none => exact ent c rfl (.refl c) op hc hl
    | some q =>
      obtain ⟨s, i⟩ := CInv.reach h
      obtain ⟨op', rest, hq⟩ := i.held q hl
      obtain ⟨l, o, r, hr⟩ := i.holder_ok v hq
      obtain ⟨d, h1, h2, h3, h4⟩ := holder_runs (own := own) rest c hq hr
      refine ent d h4 h1 op ?_ h2
      rw [h3, upd_other _ _ (by rintro rfl; rw [hc] at hq; cases hq)]
      exact hc

/-- **C31**, mutual exclusion: no two processes are inside critical sections. -/
theorem C31_mutual_exclusion {own : Nat → Nat} {a : InitArgs} {c : Conc} (h : Conc.Steps own (Conc.init a) c)
    {p q : Nat} {op op' : Op} {x y : Prog Ring (Life Handle Unit × Out)}
    (hp : c.procs p = .inside op x) (hq : c.procs q = .inside op' y) : p = q := by
  obtain ⟨s, i⟩ := CInv.reach h
  have h1 := (i.holder p op x hp).1
  have h2 := (i.holder q op' y hq).1
  rw [h1] at h2
  exact Option.some.inj h2

/-- **C01 and C31**: FIFO, exactly once, for concurrent processes.  Ring without SHR_DROP and SHR_FARM, no buffered
writers; at any moment when nobody is inside a critical section, in the order of a linearization: the messages
delivered by all reads, followed by those unread in the ring, are those of the writes. -/
theorem C31_fifo_exactly_once {own : Nat → Nat} {a : InitArgs} {c : Conc} (h : Conc.Steps own (Conc.init a) c)
    (v : Valid a (opsOf c.events)) (hd : a.flags.has SHR_DROP = false) (hf : a.flags.has SHR_FARM = false)
    (hu : Unbuffered (opsOf c.events)) (hl : c.lock = none) :
    ∃ L, Linearization a c.events L ∧
      Entered (L.map (·.2.1)) (L.map (·.2.2)) (delivered (L.map (·.2.2)) ++ c.ring.unreadMsgs) := by
  obtain ⟨L, hL, hr⟩ := C31_linearizable h
  have hs := log_subperm fun p => (hL.all p).2
  exact ⟨L, hL, C01_fifo_any_failures (v.sub hs) hd hf (fun op ho => hu op (hs.subset ho)) (hr hl)⟩

/-! ### Buffered writes with a full cache

A write on a buffered handle whose cache cannot take the messages flushes first, so it passes through two
critical sections.  It is a flush followed by the write, in the sequential model too: so `Conc.Step` can
treat it as two calls. -/

theorem sys_step_writev {s : Sys} {k : Nat} {h : Handle} (e : s.hs k = .live h) (hw : h.flags.has SHR_WRONLY = true)
    (iov : List Msg) (envF env : Env) : s.step (.writev k iov envF env) =
      match exec (shr_writev h iov envF env) s.ring with
      | .error f => .error f
      | .ok ((h', o), r) => .ok (⟨r, upd s.hs k (.live h')⟩, o.out) := by
  unfold Sys.step
  simp only [e, hw, Bool.true_eq_false, if_false]
  rfl

theorem sys_step_flush {s : Sys} {k : Nat} {h : Handle} (e : s.hs k = .live h) (hw : h.flags.has SHR_WRONLY = true)
    (wait : Bool) (env : Env) : s.step (.flush k wait env) =
      match exec (shr_flush h wait env) s.ring with
      | .error f => .error f
      | .ok ((h', o), r) => .ok (⟨r, upd s.hs k (.live h')⟩, o.out) := by
  unfold Sys.step
  simp only [e, hw, Bool.true_eq_false, if_false]
  rfl

/-- The flush on its own. -/
theorem flush_exec {h : Handle} {r : Ring} {env : Env} (hw : h.flags.has SHR_WRONLY = true) (hb : h.flags.has SHR_BUFFERED = true)
    (hc : ¬ h.c.n = 0) : exec (shr_flush h false env) r =
      match (flushCache h env r).res with
      | .ok out r' => .ok ((match out with
        | .ret rc _ => if rc > 0 then { h with c := { h.c with n := 0, vm := 0 } } else h
        | .wait => h, out), r')
      | .abort _ => .error .abort
      | .ub => .error .ub
      | .hang => .error .hang := by
  have hbits : (h.flags.clear SHR_BUFFERED).set SHR_BUFFERED = h.flags := clear_set_BUFFERED _ (by rw [← has_BUFFERED]; exact hb)
  unfold shr_flush exec
  simp only [hw, M.assert_true_bind, if_neg hc, Bool.and_false, Bool.false_eq_true, if_false, false_and]
  rw [M.bind_apply]
  cases (flushCache h env r).res with
  | ok out r' => cases out <;> simp [hbits]
  | abort r => rfl
  | ub => rfl
  | hang => rfl

theorem cacheLoop_empty {iov : List Msg} {len : Nat} {envF : Env} {h : Handle} (hc : h.c.n = 0) (m n : Nat) :
    cacheLoop iov len envF (m + 1) h = cacheLoop iov len envF (n + 1) h := by
  unfold cacheLoop
  simp only [hc, if_true]

/-- The write that flushes first. -/
theorem writev_exec {h : Handle} {r : Ring} {iov : List Msg} {envF env : Env} {len : Nat} (hw : h.flags.has SHR_WRONLY = true)
    (hb : h.flags.has SHR_BUFFERED = true) (hc : ¬ h.c.n = 0) (el : lenCheck h.n h.mm (iov.map List.length) = some len)
    (hl : ¬ (len ≤ wsub h.c.sz h.c.n ∧ iov.length ≤ wsub h.c.vt h.c.vm)) : exec (shr_writev h iov envF env) r =
      match (flushCache h envF r).res with
      | .ok .wait r' => .ok ((h, .wait), r')
      | .ok (.ret rc w) r' => if rc ≤ 0 then .ok ((h, .ret rc w), r')
        else exec (shr_writev { h with c := { h.c with n := 0, vm := 0 } } iov envF env) r'
      | .abort _ => .error .abort
      | .ub => .error .ub
      | .hang => .error .hang := by
  have hb' : ¬ (h.flags.has SHR_BUFFERED = false) := by rw [hb]; simp
  unfold shr_writev exec
  simp only [hw, el, M.assert_true_bind]
  rw [M.bind_apply]
  conv => lhs; unfold cacheLoop
  rw [if_neg hb', if_neg hl, if_neg hc, M.bind_apply]
  cases (flushCache h envF r).res with
  | ok out r' =>
    cases out with
    | wait => simp
    | ret rc w =>
      dsimp only
      by_cases hrc : rc ≤ 0
      · simp [hrc]
      · rw [if_neg hrc, if_neg hrc, cacheLoop_empty rfl 0 1, M.bind_apply]
        cases (cacheLoop iov len envF (1 + 1) { h with c := { h.c with n := 0, vm := 0 } } r').res with
        | ok x r2 => rfl
        | abort r2 => rfl
        | ub => rfl
        | hang => rfl
  | abort r => rfl
  | ub => rfl
  | hang => rfl

theorem C31_buffered_write_splits (s : Sys) (k : Nat) (iov : List Msg) (envF env : Env)
    (hn : needsFlush (s.hs k) (.writev k iov envF env) = true) :
    s.step (.writev k iov envF env) =
      match s.step (.flush k false envF) with
      | .error f => .error f
      | .ok (s', o) => match o with
        | .wrote rc => if rc ≤ 0 then .ok (s', o) else s'.step (.writev k iov envF env)
        | _ => .ok (s', o) := by
  unfold needsFlush at hn
  cases e : s.hs k with
  | never => rw [e] at hn; simp at hn
  | gone b => rw [e] at hn; simp at hn
  | live h =>
    rw [e] at hn
    simp only [Bool.and_eq_true, decide_eq_true_eq] at hn
    obtain ⟨⟨⟨hw, hb⟩, hc⟩, hl⟩ := hn
    cases el : lenCheck h.n h.mm (iov.map List.length) with
    | none => rw [el] at hl; cases hl
    | some len =>
      rw [el] at hl
      have hl' : ¬ (len ≤ wsub h.c.sz h.c.n ∧ iov.length ≤ wsub h.c.vt h.c.vm) :=
        of_decide_eq_false (by
          dsimp only at hl
          exact (Bool.not_eq_true' _).mp hl)
      rw [sys_step_writev e hw, sys_step_flush e hw, flush_exec hw hb hc, writev_exec hw hb hc el hl']
      cases (flushCache h envF s.ring).res with
      | ok out r =>
        cases out with
        | wait => rfl
        | ret rc w =>
          dsimp only [WrOut.out]
          by_cases hrc : rc ≤ 0
          · have hrc' : ¬ rc > 0 := by omega
            simp only [if_pos hrc, if_neg hrc']
          · have hrc' : rc > 0 := by omega
            simp only [if_neg hrc, if_pos hrc']
            rw [sys_step_writev (h := { h with c := { h.c with n := 0, vm := 0 } }) (upd_same _ _ _) hw]
            simp only [upd_upd']
            rfl
      | abort r => rfl
      | ub => rfl
      | hang => rfl

/-! ### Example: two processes overlap -/

/-- Handle `k` is used by process `k`. -/
abbrev exOwn : Nat → Nat := id

def exA : InitArgs := { dataSz := 16 }

/-- Two processes open the ring; while the first is inside its critical section the second calls, and waits
for the lock. -/
theorem exConc : ∃ c : Conc, Conc.Steps exOwn (Conc.init exA) c ∧ c.lock = some 0 ∧
    opsOf c.events = [.open 0 SHR_WRONLY {}, .open 1 SHR_RDONLY {}] ∧ c.procs 1 = .want (.open 1 SHR_RDONLY {}) := by
  obtain ⟨P, hP⟩ := opSec_prog (.never) (.open 0 SHR_WRONLY {})
  have h1 : Conc.Steps exOwn (Conc.init exA) _ := .step (.refl _) (.call (p := 0) (op := .open 0 SHR_WRONLY {}) rfl rfl rfl)
  have h2 := Conc.Steps.step h1 (.acquire (p := 0) (op := .open 0 SHR_WRONLY {}) (prog := P) rfl rfl hP)
  have h3 := Conc.Steps.step h2 (.call (p := 1) (op := .open 1 SHR_RDONLY {}) rfl rfl rfl)
  exact ⟨_, h3, rfl, rfl, rfl⟩

/-- From there the second process can return, although the first holds the lock. -/
example : ∃ c c' op o, Conc.Steps exOwn (Conc.init exA) c ∧ c.lock = some 0 ∧ Conc.Steps exOwn c c' ∧
    c'.procs 1 = .idle ∧ c'.events = c.events ++ [.ret 1 op o] := by
  obtain ⟨c, h, hl, ho, hp⟩ := exConc
  obtain ⟨c', op, o, h1, h2, h3⟩ := C31_no_deadlock h (by rw [ho]; exact valid_of (by decide +kernel)) (p := 1) (by rw [hp]; intro x; cases x)
  exact ⟨c, c', op, o, h, hl, h1, h2, h3⟩

/-- A buffered handle whose cache is in use and too small. -/
example : needsFlush (.live ⟨SHR_WRONLY ||| SHR_BUFFERED, ⟨0, 0⟩,
    { buf := List.replicate 8 0, sz := 8, n := 6, iov := List.replicate 4 (0, 6), vt := 4, vm := 1 }, 8, 4, true⟩)
    (.writev 0 [[1, 2, 3]] {} {}) = true := by decide +kernel

end Shr
