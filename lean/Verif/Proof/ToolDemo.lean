import Verif.Proof.ToolSys
import Verif.Proof.Demo
/-! Concrete rings and runs of tools, for the examples and counterexamples beside the theorems. -/
namespace Shr

/-- A ring after the history `pre` and, since the tool was started, `ops`. -/
def ringAfter (a : InitArgs) (pre ops : List Op) : RingLog :=
  ⟨a, pre, final a (pre ++ ops), ops, (outsOf a (pre ++ ops)).drop pre.length⟩

theorem ringAfter_step {a : InitArgs} {pre ops : List Op} {op : Op} (v : Valid a (pre ++ ops ++ [op])) :
    (ringAfter a pre ops).sys.step op = .ok (final a (pre ++ ops ++ [op]), lastOut a (pre ++ ops ++ [op])) := v.steps

theorem outsOf_snoc {a : InitArgs} {ops : List Op} {op : Op} (v : Valid a (ops ++ [op])) :
    outsOf a (ops ++ [op]) = outsOf a ops ++ [lastOut a (ops ++ [op])] := by
  have h1 := v.left.runs
  have h2 := v.runs
  have h3 := v.steps
  rw [sys_run_append, h1] at h2
  dsimp only [Sys.run] at h2
  rw [h3] at h2
  simp only [Except.ok.injEq, Prod.mk.injEq] at h2
  exact h2.2.symm

theorem ringAfter_add {a : InitArgs} {pre ops : List Op} {op : Op} (v : Valid a (pre ++ ops ++ [op])) :
    (ringAfter a pre ops).add (final a (pre ++ ops ++ [op])) op (lastOut a (pre ++ ops ++ [op])) = ringAfter a pre (ops ++ [op]) := by
  have hl : pre.length ≤ (outsOf a (pre ++ ops)).length := by
    rw [sys_run_length _ _ _ _ v.left.runs]; simp
  unfold ringAfter RingLog.add
  dsimp only
  rw [← List.append_assoc, outsOf_snoc v, List.drop_append_of_le_length hl]

/-- A tool makes a call. -/
theorem Reach_call {τ : Type} {P : Proc τ} {w0 : World τ} {rings : Nat → RingLog} {t t' : τ} {i : Nat} {a : InitArgs} {pre ops : List Op} {op : Op}
    (hr : World.Reach P w0 ⟨rings, t⟩) (hi : rings i = ringAfter a pre ops) (v : Valid a (pre ++ ops ++ [op])) (hc : P.call t i op)
    (hret : P.ret t op (lastOut a (pre ++ ops ++ [op])) t') : World.Reach P w0 ⟨upd rings i (ringAfter a pre (ops ++ [op])), t'⟩ := by
  rw [← ringAfter_add v]
  have := World.Step.call (P := P) (w := ⟨rings, t⟩) (i := i) (op := op) (t := t') hc (by show (rings i).sys.step op = _; rw [hi]; exact ringAfter_step v) hret
  dsimp only at this
  rw [hi] at this
  exact .step hr this

/-- Another process makes a call. -/
theorem Reach_other {τ : Type} {P : Proc τ} {w0 : World τ} {rings : Nat → RingLog} {t : τ} {i : Nat} {a : InitArgs} {pre ops : List Op} {op : Op}
    (hr : World.Reach P w0 ⟨rings, t⟩) (hi : rings i = ringAfter a pre ops) (v : Valid a (pre ++ ops ++ [op]))
    (hne : ∀ k f, P.own i = some (k, f) → op.handle ≠ k) : World.Reach P w0 ⟨upd rings i (ringAfter a pre (ops ++ [op])), t⟩ := by
  rw [← ringAfter_add v]
  have := World.Step.other (P := P) (w := ⟨rings, t⟩) (i := i) (op := op) hne (by show (rings i).sys.step op = _; rw [hi]; exact ringAfter_step v)
  dsimp only at this
  rw [hi] at this
  exact .step hr this

theorem Reach_event {τ : Type} {P : Proc τ} {w0 : World τ} {rings : Nat → RingLog} {t t' : τ}
    (hr : World.Reach P w0 ⟨rings, t⟩) (he : P.event t t') : World.Reach P w0 ⟨rings, t'⟩ :=
  .step hr (.event (w := ⟨rings, t⟩) he)

theorem valid_read {a : InitArgs} {ops : List Op} {k : Nat} {env : Env} (v : Valid a ops) (hf : a.flags.has SHR_FARM = false) {buf : List Byte}
    (hb : buf.length = BUFLEN) : Valid a (ops ++ [.readv k buf 1 env]) where
  init := v.init
  wf op h := by
    rcases List.mem_append.mp h with h | h
    · exact v.wf op h
    · rw [List.mem_singleton.mp h]
      show buf.length < W
      rw [hb]; decide
  count h := by rw [hf] at h; cases h

/-- The tool's buffer. -/
def toolBuf : List Byte := List.replicate BUFLEN 0
theorem toolBuf_length : toolBuf.length = BUFLEN := List.length_replicate
attribute [irreducible] toolBuf

/-- The tool reads the first unread message. -/
theorem demo_read {a : InitArgs} {ops : List Op} {k : Nat} {m : Msg} {U : List Msg} (v : Valid a (ops ++ [.readv k toolBuf 1 {}]))
    (hl : ((final a ops).hs k).isLive = true) (hf : ((final a ops).handle k).flags = READER)
    (hU : (final a ops).ring.readableBy ((final a ops).handle k) = m :: U) (hlen : m.length ≤ 1000000) :
    (∃ buf', lastOut a (ops ++ [.readv k toolBuf 1 {}]) = .read m.length [(0, m.length)] buf' ∧ buf'.take m.length = m) ∧
    ∃ h', (final a (ops ++ [.readv k toolBuf 1 {}])).hs k = .live h' ∧ (final a (ops ++ [.readv k toolBuf 1 {}])).ring.readableBy h' = U := by
  have hk := live_handle hl
  have hbl : toolBuf.length = 1000000 := toolBuf_length
  have hne : toolBuf ≠ [] := by intro h; rw [h] at hbl; cases hbl
  obtain ⟨h1, _⟩ := read_once v v.left.runs v.steps hk hf hne
  obtain ⟨t, iov, buf', ho, ht, _, _, hmax, hil, him, _, _, _, hrest⟩ := C09_longest_prefix v v.left.runs v.steps hk (by rw [hf]; decide) hne (by decide) rfl
    (by rw [hU]; simp)
  have h1t := hmax 1 (by omega) (by rw [hU]; simp) (by rw [hU, hbl]; simpa [bytesOf] using hlen)
  have ht1 : t = 1 := by omega
  subst ht1
  rw [hU] at hrest
  refine ⟨?_, hrest⟩
  have hz : bytesOf [m] = m.length := by simp [bytesOf]
  rw [hU, if_neg (by omega), show (m :: U).take 1 = [m] from rfl, hz] at ho
  rcases h1 with ⟨rc, hrc, e⟩ | ⟨m', b, hm', e, hb, _⟩
  · rw [ho] at e
    injection e with e1 e2 e3
    exfalso
    have hm : m = [] := List.length_eq_zero_iff.mp (by omega)
    obtain ⟨sp, sh, h', x, hsk, hh, _, _, e, _⟩ := read_cases v v.left.runs v.steps hk (by rw [hf]; decide) hne (by decide) rfl
    exact readable_ne x.rel.ring sh m (by rw [← e, hU]; simp) hm
  · have hmm : m' = m := by
      rw [e] at ho
      injection ho with e1 e2 e3
      subst e2 e3
      rw [hU] at him
      simpa [sliceOf, hb] using him
    subst hmm
    exact ⟨b, e, hb⟩

/-- A ring of 2 bytes with a writer. -/
def demoS : InitArgs := { dataSz := 2, maxMsgs := 3, flags := SHR_MAXMSGS_2 }
def demoPreW : List Op := [opn 1 WRITER]

theorem ringAfter_run {a : InitArgs} {pre ops : List Op} (v : Valid a (pre ++ ops)) :
    (Sys.init a).run (pre ++ ops) = .ok ((ringAfter a pre ops).sys, outsOf a (pre ++ ops)) := v.runs

/-- Rings that a tool has just opened. -/
theorem start_of {τ : Type} {P : Proc τ} {rings : Nat → RingLog} {t : τ} (as : Nat → InitArgs) (pres : Nat → List Op)
    (hr : ∀ i, rings i = ringAfter (as i) (pres i) []) (v : ∀ i, Valid (as i) (pres i))
    (own : ∀ i k f, P.own i = some (k, f) → ((final (as i) (pres i)).hs k).isLive = true ∧ ((final (as i) (pres i)).handle k).flags = f) :
    World.Start P ⟨rings, t⟩ where
  run i := by
    dsimp only
    rw [hr i]
    exact ⟨_, by simpa [ringAfter] using (v i).runs⟩
  new i := by
    dsimp only
    rw [hr i]
    refine ⟨rfl, ?_⟩
    unfold ringAfter
    dsimp only
    rw [List.append_nil]
    apply List.drop_eq_nil_of_le
    rw [sys_run_length _ _ _ _ (v i).runs]; exact Nat.le_refl _
  own i k f h := by
    obtain ⟨h1, h2⟩ := own i k f h
    dsimp only
    rw [hr i]
    refine ⟨_, ?_, h2⟩
    unfold ringAfter
    rw [List.append_nil]
    exact live_handle h1

theorem valid_of_rings {τ : Type} {rings : Nat → RingLog} {t : τ} (as : Nat → InitArgs) (pres opss : Nat → List Op)
    (hr : ∀ i, rings i = ringAfter (as i) (pres i) (opss i)) (v : ∀ i, Valid (as i) (pres i ++ opss i)) : World.Valid (τ := τ) ⟨rings, t⟩ := by
  intro i
  dsimp only
  rw [hr i]
  exact v i

/-- The rings of the examples: ring 0 has two unread messages and a reader 1, the others are rings of 2 bytes with a writer 1. -/
def demoRings : Nat → RingLog := fun i => if i = 0 then ringAfter demoA demoOps [] else ringAfter demoS demoPreW []
def demoAs : Nat → InitArgs := fun i => if i = 0 then demoA else demoS
def demoPres : Nat → List Op := fun i => if i = 0 then demoOps else demoPreW

theorem demoRings_eq (i : Nat) : demoRings i = ringAfter (demoAs i) (demoPres i) [] := by
  unfold demoRings demoAs demoPres
  split <;> rfl
theorem demo_valid (i : Nat) : Valid (demoAs i) (demoPres i) := by
  unfold demoAs demoPres
  split
  · exact valid_of (by decide +kernel)
  · exact valid_of (by decide +kernel)
theorem demo_own {i k : Nat} {f : Flags} (h : (i = 0 ∧ k = 1 ∧ f = READER) ∨ (i ≠ 0 ∧ k = 1 ∧ f = WRITER)) :
    ((final (demoAs i) (demoPres i)).hs k).isLive = true ∧ ((final (demoAs i) (demoPres i)).handle k).flags = f := by
  unfold demoAs demoPres
  rcases h with ⟨rfl, rfl, rfl⟩ | ⟨hi, rfl, rfl⟩
  · decide +kernel
  · rw [if_neg hi, if_neg hi]; decide +kernel

theorem ringAfter_outs1 {a : InitArgs} {pre : List Op} {op : Op} (v : Valid a (pre ++ [] ++ [op])) :
    (ringAfter a pre ([] ++ [op])).outs = [lastOut a (pre ++ [] ++ [op])] := by
  rw [← ringAfter_add v]
  have v' : Valid a pre := by have := v.left; rw [List.append_nil] at this; exact this
  have : (ringAfter a pre []).outs = [] := by
    unfold ringAfter
    dsimp only
    rw [List.append_nil]
    apply List.drop_eq_nil_of_le
    rw [sys_run_length _ _ _ _ v'.runs]
    exact Nat.le_refl _
  unfold RingLog.add
  dsimp only
  rw [this]; rfl

theorem ringAfter_taken1 {a : InitArgs} {pre : List Op} {op : Op} {k : Nat} (v : Valid a (pre ++ [] ++ [op])) (hk : op.handle = k) :
    (ringAfter a pre ([] ++ [op])).taken k = (lastOut a (pre ++ [] ++ [op])).msgs := by
  unfold RingLog.taken
  rw [ringAfter_outs1 v]
  show (if op.handle = k then _ else _) ++ deliveredTo k [] [] = _
  rw [if_pos hk]; simp [deliveredTo]

theorem demoRings_nil (i k : Nat) : (demoRings i).taken k = [] ∧ (demoRings i).put k = [] := by
  rw [demoRings_eq]; exact ⟨rfl, rfl⟩

theorem ringAfter_sys (a : InitArgs) (pre ops : List Op) : (ringAfter a pre ops).sys = final a (pre ++ ops) := rfl

theorem demoRings_zero : (demoRings 0).sys = final demoA demoOps := by
  rw [demoRings_eq, ringAfter_sys, List.append_nil]; rfl

end Shr
