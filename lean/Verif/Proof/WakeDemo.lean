import Verif.Props.Wake
import Verif.Proof.Demo
import Verif.Props.Bw
/-!
# Concrete runs of the ring with block/wake

An executable form of the steps, used to show that the hypotheses of the theorems can be met, and for counterexamples.
-/
namespace Shr

instance (w : WSys) (op : Op) : Decidable (∀ k flags env, op = .open k flags env → w.b.ts (2 * k) = none ∧ w.b.ts (2 * k + 1) = none) :=
  match op with
  | .open k _ _ => if h : (w.b.ts (2 * k)).isNone = true ∧ (w.b.ts (2 * k + 1)).isNone = true
      then .isTrue (fun k' _ _ e => by cases e; simpa [Option.isNone_iff_eq_none] using h)
      else .isFalse (fun h2 => h (by simpa [Option.isNone_iff_eq_none] using h2 k _ _ rfl))
  | .writev _ _ _ _ => .isTrue (fun _ _ _ e => by cases e)
  | .readv _ _ _ _ => .isTrue (fun _ _ _ e => by cases e)
  | .flush _ _ _ => .isTrue (fun _ _ _ e => by cases e)
  | .close _ _ => .isTrue (fun _ _ _ e => by cases e)
  | .stat _ _ _ => .isTrue (fun _ _ _ e => by cases e)
  | .farmStat _ _ => .isTrue (fun _ _ _ e => by cases e)
  | .appdata _ _ _ _ _ => .isTrue (fun _ _ _ e => by cases e)

instance (w : WSys) (op : Op) : Decidable (w.Callable op) := by unfold WSys.Callable; infer_instance

/-- One step, computed. -/
def WSys.next (w : WSys) (pid : Nat → Nat) : WOp → Option (WSys × Out × List BOp)
  | .call op os => if w.Callable op then w.attempt pid op os else none
  | .wakeup k os =>
    match w.blk k with
    | some (op, false) =>
      if 1 ≤ w.b.pending op.waitsOn ∧ (w.b.step (.ready op.waitsOn os)).2 = true then
        some ({ w with b := w.b.runs [.ready op.waitsOn os], blk := upd w.blk k (some (op, true)) }, .blocked, [.ready op.waitsOn os])
      else none
    | _ => none
  | .resume k env os =>
    match w.blk k with
    | some (op, true) => w.attempt pid (op.withEnv env) os
    | _ => none
  | .interrupt k e os =>
    match w.blk k with
    | some (op, false) =>
      let ops := if WSys.gaveUp e op = .closed ∧ os.lock2 = true then [BOp.close (2 * k), .close (2 * k + 1)] else []
      some ({ sys := if WSys.gaveUp e op = .closed then w.sys.discard (fun j => j == k) else w.sys
              b := w.b.runs ops
              blk := upd w.blk k none }, WSys.gaveUp e op, ops)
    | _ => none
  | .kill p =>
      some ({ sys := w.sys.discard (fun j => pid j == p)
              b := w.b.runs [.exit p]
              blk := fun j => match w.sys.hs j with
                | .live _ => if pid j = p then none else w.blk j
                | _ => w.blk j }, .misuse, [.exit p])

theorem WSys.next_sound {w w' : WSys} {pid : Nat → Nat} {x : WOp} {o : Out} {ops : List BOp} (h : w.next pid x = some (w', o, ops)) :
    WSys.Step pid w x w' o ops := by
  cases x with
  | call op os =>
    unfold WSys.next at h; dsimp only at h
    split at h
    · rename_i hc; exact .call hc h
    · cases h
  | wakeup k os =>
    unfold WSys.next at h; dsimp only at h
    split at h
    · rename_i op hb
      split at h
      · rename_i hc; cases h; exact .wakeup hb hc.1 hc.2
      · cases h
    · cases h
  | resume k env os =>
    unfold WSys.next at h; dsimp only at h
    split at h
    · rename_i op hb; exact .resume hb h
    · cases h
  | interrupt k e os =>
    unfold WSys.next at h; dsimp only at h
    split at h
    · rename_i op hb; cases h; exact .interrupt hb rfl
    · cases h
  | kill p =>
    unfold WSys.next at h; dsimp only at h
    cases h; exact .kill

/-- The results of the operating system in a step never contain a hard send error. -/
def WOp.sends : WOp → Prop
  | .call _ os => ∀ n, os.o1.send n ≠ .fail
  | .resume _ _ os => ∀ n, os.o1.send n ≠ .fail
  | _ => True

/-- The wake-ups of a step use the first oracle. -/
theorem bops_wake {w : WSys} {pid : Nat → Nat} {os : WOs} {o : Out} {op : Op} {i : Nat} {os' : Os}
    (h : BOp.wake i os' ∈ w.bops pid os o op) : os' = os.o1 := by
  cases op with
  | «open» k flags env =>
    unfold WSys.bops at h; dsimp only at h
    split at h
    · unfold open_blockwake at h; dsimp only at h
      repeat' split at h
      all_goals simp at h
    · cases h
  | writev k iov e1 e2 =>
    unfold WSys.bops at h; dsimp only at h
    split at h
    · simp at h; exact h.2
    · cases h
  | readv k buf niov env =>
    unfold WSys.bops at h; dsimp only at h
    rw [List.mem_append] at h
    rcases h with h | h
    · split at h
      · simp at h; exact h.2
      · cases h
    · split at h
      · simp at h
      · cases h
  | flush k wait env =>
    unfold WSys.bops WSys.flushPre at h; dsimp only at h
    rw [List.mem_append] at h
    rcases h with h | h
    · split at h
      · simp at h
      · cases h
    · split at h
      · simp at h; exact h.2
      · cases h
  | close k env =>
    unfold WSys.bops at h; dsimp only at h
    rw [List.mem_append] at h
    rcases h with h | h
    · split at h
      · simp at h; exact h.2
      · cases h
    · split at h
      · simp at h
      · cases h
  | stat => cases h
  | farmStat => cases h
  | appdata => cases h

theorem attempt_wake {w w' : WSys} {pid : Nat → Nat} {os : WOs} {o : Out} {op : Op} {ops : List BOp} (h : w.attempt pid op os = some (w', o, ops))
    {i : Nat} {os' : Os} (hm : BOp.wake i os' ∈ ops) : os' = os.o1 := by
  unfold WSys.attempt at h
  split at h
  · cases h
  · cases h; exact bops_wake hm

theorem step_sends {w w' : WSys} {pid : Nat → Nat} {x : WOp} {o : Out} {ops : List BOp} (h : WSys.Step pid w x w' o ops) (hs : x.sends) :
    ∀ i os, BOp.wake i os ∈ ops → ∀ n, os.send n ≠ .fail := by
  intro i os hm
  cases h with
  | call _ h => rw [attempt_wake h hm]; exact hs
  | wakeup => simp at hm
  | resume _ h => rw [attempt_wake h hm]; exact hs
  | interrupt _ h => rw [h] at hm; split at hm <;> simp at hm
  | kill => simp at hm

def BOp.isSignal : BOp → Bool
  | .wake _ _ => true
  | .force _ _ _ => true
  | _ => false

def BSys.sigRun (s : BSys) : List BOp → Bool
  | [] => true
  | op :: ops => (!op.isSignal || (s.step op).2) && (s.step op).1.sigRun ops

theorem sigRun_ok {S : BOp → Bool} (hS : ∀ y, S y = true → y.isSignal = true) : ∀ (ops : List BOp) (b : BSys), b.sigRun ops = true → b.Succeed S ops
  | [], _, _ => trivial
  | op :: ops, b, h => by
    simp only [BSys.sigRun, Bool.and_eq_true] at h
    refine ⟨fun hs => ?_, sigRun_ok hS ops _ h.2⟩
    have := h.1; rw [hS _ hs] at this; simpa using this

theorem wakes_isSignal {c : Nat} : ∀ y, BOp.wakes c y = true → y.isSignal = true := by intro y h; cases y <;> first | rfl | cases h
theorem forces_isSignal {i : Nat} : ∀ y, BOp.forces i y = true → y.isSignal = true := by intro y h; cases y <;> first | rfl | cases h

/-- A clean step in which (if `st`) no wake-up or forced readiness fails. -/
structure GoodStep (st : Bool) (a : InitArgs) (pid : Nat → Nat) (hist : List Op) (w : WSys) (x : WOp) (w' : WSys) (o : Out) (ops : List BOp) : Prop where
  any : AStep a pid hist w x w' o ops
  clean : w.b.CleanRun ops
  ok : st = true → x.isOpen = false → ∀ S : BOp → Bool, (∀ y, S y = true → y.isSignal = true) → w.b.Succeed S ops

/-- States reachable by such steps. -/
structure Good (st : Bool) (a : InitArgs) (pid : Nat → Nat) (hist : List Op) (w : WSys) : Prop where
  clean : CReach a pid hist w
  ann : st = true → ∀ c S, (∀ y, S y = true → y.isSignal = true) → Announced a pid c S hist w

theorem Good.init {st : Bool} {a : InitArgs} {pid : Nat → Nat} (h : a.WF) : Good st a pid [] (WSys.init a) := ⟨.init h, fun _ _ _ _ => .init h⟩

theorem Good.step {st : Bool} {a : InitArgs} {pid : Nat → Nat} {hist : List Op} {w w' : WSys} {x : WOp} {o : Out} {ops : List BOp} (h : Good st a pid hist w)
    (hs : GoodStep st a pid hist w x w' o ops) : Good st a pid (hist ++ x.issued w) w' :=
  ⟨.step h.clean hs.any hs.clean, fun hst c S hS => .keeps (h.ann hst c S hS) hs.any hs.clean (fun e => hs.ok hst e S hS)⟩

theorem cleanRun_ok (n : Nat) : ∀ (ops : List BOp) (b : BSys), b.Below n → b.cleanRun n ops = true →
    (∀ i os, BOp.wake i os ∈ ops → ∀ n, os.send n ≠ .fail) → b.CleanRun ops ∧ (b.runs ops).Below n
  | [], _, hb, _, _ => ⟨trivial, hb⟩
  | op :: ops, b, hb, hc, hs => by
    simp only [BSys.cleanRun, Bool.and_eq_true] at hc
    obtain ⟨h1, h2⟩ := cleanRun_ok n ops _ (hb.step hc.1) hc.2 (fun i os h => hs i os (List.mem_cons_of_mem _ h))
    exact ⟨⟨BSys.clean_of hb hc.1 (fun i os e => hs i os (by rw [e]; simp)), h1⟩, h2⟩

/-- The conditions of `AStep`, computed. -/
def WOp.good (a : InitArgs) : WOp → Bool
  | .call op _ => op.ok a.appsize
  | _ => true

/-- One step with the conditions of `GoodStep` checked. -/
def WSys.try (st : Bool) (a : InitArgs) (pid : Nat → Nat) (n : Nat) (hist : List Op) (w : WSys) (x : WOp) : Option (WSys × Out) :=
  match w.next pid x with
  | none => none
  | some (w', o, ops) =>
    if x.good a && (!a.flags.has SHR_FARM || decide ((hist ++ x.issued w).length * offered (hist ++ x.issued w) < W)) &&
      w.b.cleanRun n ops && (!st || x.isOpen || w.b.sigRun ops) then some (w', o) else none

def WSys.play (st : Bool) (a : InitArgs) (pid : Nat → Nat) (n : Nat) : List WOp → List Op → WSys → Option WSys
  | [], _, w => some w
  | x :: xs, hist, w =>
    match w.try st a pid n hist x with
    | none => none
    | some (w', _) => w'.play st a pid n xs (hist ++ x.issued w)

theorem WSys.try_step {st : Bool} {a : InitArgs} {pid : Nat → Nat} {n : Nat} {hist : List Op} {w w1 : WSys} {x : WOp} {o : Out} (hb : w.b.Below n)
    (hs : x.sends) (e : w.try st a pid n hist x = some (w1, o)) : (∃ ops, GoodStep st a pid hist w x w1 o ops) ∧ w1.b.Below n := by
  unfold WSys.try at e
  split at e
  · cases e
  · rename_i w1 o ops hn
    split at e
    · rename_i hc
      cases e
      simp only [Bool.and_eq_true] at hc
      obtain ⟨⟨⟨c1, c2⟩, c3⟩, c4⟩ := hc
      have hst := WSys.next_sound hn
      obtain ⟨k1, k2⟩ := cleanRun_ok n ops _ hb c3 (step_sends hst hs)
      refine ⟨⟨ops, ⟨?_, ?_, hst⟩, k1, ?_⟩, ?_⟩
      · rintro op os rfl; exact Op.WF_of_ok c1
      · intro hf; rw [hf] at c2; simpa using c2
      · intro hst hno S hS
        apply sigRun_ok hS
        rw [hst, hno] at c4; simpa using c4
      · rw [astep_runs hst]; exact k2
    · cases e

theorem WSys.play_reach {st : Bool} {a : InitArgs} {pid : Nat → Nat} {n : Nat} : ∀ (xs : List WOp) (hist : List Op) (w w' : WSys), Good st a pid hist w →
    w.b.Below n → (∀ x ∈ xs, x.sends) → w.play st a pid n xs hist = some w' → ∃ hist', Good st a pid hist' w' ∧ w'.b.Below n
  | [], hist, w, w', h, hb, _, e => by cases e; exact ⟨hist, h, hb⟩
  | x :: xs, hist, w, w', h, hb, hs, e => by
    unfold WSys.play at e
    split at e
    · cases e
    · rename_i w1 o hn
      obtain ⟨⟨ops, hws⟩, hb1⟩ := WSys.try_step hb (hs x (by simp)) hn
      exact WSys.play_reach xs _ w1 w' (h.step hws) hb1 (fun y hy => hs y (by simp [hy])) e

/-- Play a script from a new ring and check the outcome. -/
def plays (st : Bool) (a : InitArgs) (pid : Nat → Nat) (n : Nat) (xs : List WOp) (P : WSys → Bool) : Bool :=
  match (WSys.init a).play st a pid n xs [] with
  | some w => P w
  | none => false

theorem plays_below {st : Bool} {a : InitArgs} {pid : Nat → Nat} {n : Nat} {xs : List WOp} {P : WSys → Bool} (ha : a.WF) (hs : ∀ x ∈ xs, x.sends)
    (h : plays st a pid n xs P = true) : ∃ hist w, Good st a pid hist w ∧ w.b.Below n ∧ P w = true := by
  unfold plays at h
  split at h
  · rename_i w e
    obtain ⟨hist, hr, hb⟩ := WSys.play_reach xs [] _ w (Good.init ha) (by intro j hi p t e; cases e) hs e
    exact ⟨hist, w, hr, hb, h⟩
  · cases h

theorem plays_reach {st : Bool} {a : InitArgs} {pid : Nat → Nat} {n : Nat} {xs : List WOp} {P : WSys → Bool} (ha : a.WF) (hs : ∀ x ∈ xs, x.sends)
    (h : plays st a pid n xs P = true) : ∃ hist w, Good st a pid hist w ∧ P w = true := by
  obtain ⟨hist, w, h1, _, h2⟩ := plays_below ha hs h
  exact ⟨hist, w, h1, h2⟩

/-- Play a script, then one more step, and check both states and the last result (ring without SHR_FARM). -/
theorem plays_step {st : Bool} {a : InitArgs} {pid : Nat → Nat} {n : Nat} {xs : List WOp} {x : WOp} {P : WSys → WSys → Out → Bool} (ha : a.WF)
    (hf : a.flags.has SHR_FARM = false) (hs : ∀ y ∈ xs, y.sends) (hx : x.sends)
    (h : plays st a pid n xs (fun w => match w.try st a pid n [] x with | some (w', o) => P w w' o | none => false) = true) :
    ∃ hist w w' o ops, Good st a pid hist w ∧ GoodStep st a pid hist w x w' o ops ∧ P w w' o = true := by
  obtain ⟨hist, w, h1, hb, h2⟩ := plays_below ha hs h
  split at h2
  · rename_i w' o e
    have e' : w.try st a pid n hist x = some (w', o) := by
      unfold WSys.try at e ⊢
      rw [hf] at e ⊢
      simpa using e
    obtain ⟨ops, hg⟩ := (WSys.try_step hb hx e').1
    exact ⟨hist, w, w', o, ops, h1, hg, h2⟩
  · cases h2

/-- Play a script without conditions on the operating system. -/
def WSys.plain (pid : Nat → Nat) : List WOp → WSys → Option (WSys × List Out)
  | [], w => some (w, [])
  | x :: xs, w =>
    match w.next pid x with
    | none => none
    | some (w', o, _) =>
      match w'.plain pid xs with
      | none => none
      | some (w2, outs) => some (w2, o :: outs)

/-- A sequence of steps without conditions on the operating system, with the results of the calls. -/
inductive WSys.Steps (pid : Nat → Nat) : WSys → List Out → WSys → Prop where
  | nil (w : WSys) : Steps pid w [] w
  | cons {w w1 w2 : WSys} {x : WOp} {o : Out} {outs : List Out} {ops : List BOp} : WSys.Step pid w x w1 o ops → Steps pid w1 outs w2 →
      Steps pid w (o :: outs) w2

theorem WSys.plain_steps {pid : Nat → Nat} : ∀ (xs : List WOp) (w w' : WSys) (outs : List Out), w.plain pid xs = some (w', outs) →
    WSys.Steps pid w outs w'
  | [], w, w', outs, e => by cases e; exact .nil w
  | x :: xs, w, w', outs, e => by
    unfold WSys.plain at e
    split at e
    · cases e
    · rename_i hn
      split at e
      · cases e
      · rename_i h2
        cases e
        exact .cons (WSys.next_sound hn) (WSys.plain_steps xs _ _ _ h2)

/-- Play a script without conditions on the operating system and check the outcome. -/
def runsTo (a : InitArgs) (pid : Nat → Nat) (xs : List WOp) (P : WSys → List Out → Bool) : Bool :=
  match (WSys.init a).plain pid xs with
  | some (w, outs) => P w outs
  | none => false

theorem runsTo_steps {a : InitArgs} {pid : Nat → Nat} {xs : List WOp} {P : WSys → List Out → Bool} (h : runsTo a pid xs P = true) :
    ∃ w outs, WSys.Steps pid (WSys.init a) outs w ∧ P w outs = true := by
  unfold runsTo at h
  split at h
  · rename_i w outs e; exact ⟨w, outs, WSys.plain_steps xs _ _ _ e, h⟩
  · cases h

end Shr
