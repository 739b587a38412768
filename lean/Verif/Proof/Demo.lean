import Verif.Proof.At
/-!
# Concrete histories, used beside the theorems to show that their hypotheses can be met

Nothing here is used in a proof of a property.
-/
namespace Shr

/-- The state a history leads to. -/
def final (a : InitArgs) (ops : List Op) : Sys :=
  match (Sys.init a).run ops with
  | .ok (s, _) => s
  | .error _ => Sys.init a

/-- What the calls of a history return. -/
def outsOf (a : InitArgs) (ops : List Op) : List Out :=
  match (Sys.init a).run ops with
  | .ok (_, o) => o
  | .error _ => []

/-- The last result of a history. -/
def lastOut (a : InitArgs) (ops : List Op) : Out := (outsOf a ops).getLastD .misuse

/-- The open handle `k`. -/
def Sys.handle (s : Sys) (k : Nat) : Handle :=
  match s.hs k with
  | .live h => h
  | _ => { flags := 0#32, cur := ⟨0, 0⟩, c := {}, n := 0, mm := 0, hasR2w := false }

def Life.isLive {α β : Type} : Life α β → Bool
  | .live _ => true
  | _ => false

theorem live_handle {s : Sys} {k : Nat} (h : (s.hs k).isLive = true) : s.hs k = .live (s.handle k) := by
  unfold Sys.handle
  cases e : s.hs k <;> rw [e] at h <;> simp [Life.isLive] at h ⊢

theorem Valid.runs {a : InitArgs} {ops : List Op} (v : Valid a ops) :
    (Sys.init a).run ops = .ok (final a ops, outsOf a ops) := by
  obtain ⟨s, e, _⟩ := v.reach
  unfold final outsOf
  rw [e]

theorem Valid.steps {a : InitArgs} {ops : List Op} {op : Op} (v : Valid a (ops ++ [op])) :
    (final a ops).step op = .ok (final a (ops ++ [op]), lastOut a (ops ++ [op])) := by
  have h1 := v.left.runs
  have h2 := v.runs
  have h3 := h2
  rw [sys_run_append, h1] at h2
  dsimp only [Sys.run] at h2
  cases e : (final a ops).step op with
  | error f => rw [e] at h2; simp at h2
  | ok p =>
    obtain ⟨s', o⟩ := p
    rw [e] at h2
    simp only [Except.ok.injEq, Prod.mk.injEq] at h2
    unfold lastOut
    rw [← h2.1, ← h2.2]
    simp

theorem sys_run_length : ∀ (ops : List Op) (s s' : Sys) (outs : List Out), s.run ops = .ok (s', outs) →
    outs.length = ops.length := by
  intro ops
  induction ops with
  | nil => intro s s' outs h; simp [Sys.run] at h; rw [h.2]; rfl
  | cons op ops ih =>
    intro s s' outs h
    unfold Sys.run at h
    split at h
    · cases h
    · split at h
      · cases h
      · rename_i h2
        cases h
        simp [ih _ _ _ h2]

/-- A continuation. -/
theorem Valid.cont {a : InitArgs} {pre ops : List Op} (v : Valid a (pre ++ ops)) :
    (final a pre).run ops = .ok (final a (pre ++ ops), (outsOf a (pre ++ ops)).drop pre.length) := by
  have h1 := v.left.runs
  have h2 := v.runs
  rw [sys_run_append, h1] at h2
  dsimp only at h2
  cases e : (final a pre).run ops with
  | error f => rw [e] at h2; cases h2
  | ok p =>
    obtain ⟨s, outs⟩ := p
    rw [e] at h2
    simp only [Except.ok.injEq, Prod.mk.injEq] at h2
    obtain ⟨e1, e2⟩ := h2
    rw [e1, ← e2, ← sys_run_length _ _ _ _ h1, List.drop_left]

instance (iov : List Msg) : Decidable (WriteWF iov) := by unfold WriteWF; infer_instance

instance : Decidable (Env.good e) := by unfold Env.good; infer_instance

/-- A sufficient check for `Op.WF`. -/
def Op.ok (appLen : Nat) : Op → Bool
  | .writev _ iov _ _ => decide (WriteWF iov)
  | .open _ flags _ => !(flags.has SHR_RDONLY && flags.has SHR_WRONLY)
  | .readv _ buf _ _ => decide (buf.length < W)
  | .appdata _ get set sz _ =>
    (match set with | some b => decide (sz ≤ b.length) | none => true) &&
    (match get with | .into cap => decide (sz ≤ cap ∧ (set = none → sz ≤ appLen)) | _ => true)
  | _ => true

theorem Op.WF_of_ok {appLen : Nat} {op : Op} (h : op.ok appLen = true) : op.WF appLen := by
  cases op <;> simp only [Op.ok, Op.WF, decide_eq_true_eq] at h ⊢
  · simpa only [Bool.not_eq_true'] using h
  · exact h
  · exact h
  · simp only [Bool.and_eq_true] at h
    refine ⟨?_, ?_, ?_⟩
    · rintro b rfl; simpa using h.1
    · rintro cap rfl; exact (of_decide_eq_true h.2).1
    · rintro cap rfl hs; exact (of_decide_eq_true h.2).2 hs

/-- A sufficient check for `Valid`. -/
def okHist (a : InitArgs) (ops : List Op) : Bool :=
  decide (0 < a.dataSz ∧ a.dataSz ≤ SSIZE_MAX ∧ a.appsize < W ∧ a.max_msgs * SIZEOF_MSG < W ∧
    ops.length * offered ops < W) && ops.all fun op => op.ok a.appsize

theorem valid_of {a : InitArgs} {ops : List Op} (h : okHist a ops = true) : Valid a ops := by
  unfold okHist at h
  simp only [Bool.and_eq_true, decide_eq_true_eq, List.all_eq_true] at h
  obtain ⟨⟨h1, h2, h3, h4, h5⟩, h6⟩ := h
  exact ⟨⟨h1, h2, h3, h4⟩, fun op ho => Op.WF_of_ok (h6 op ho), fun _ => h5⟩

/-! ## Shorthand for calls -/

def wr (k : Nat) (iov : List Msg) : Op := .writev k iov {} {}
def rd (k : Nat) (len niov : Nat) : Op := .readv k (List.replicate len 0) niov {}
def opn (k : Nat) (flags : Flags) : Op := .open k flags {}

/-! ## A ring of 10 bytes and 3 messages, a writer 0 and a reader 1, both non-blocking; the third
message straddles the end of the data area -/

def demoA : InitArgs := { dataSz := 10, maxMsgs := 3, flags := SHR_MAXMSGS_2 }
def demoOps : List Op := [opn 0 (SHR_WRONLY ||| SHR_NONBLOCK), opn 1 (SHR_RDONLY ||| SHR_NONBLOCK),
  wr 0 [[1, 2, 3], [4, 5, 6, 7]], rd 1 5 1, wr 0 [[8, 9, 10, 11]]]

/-- The same with SHR_DROP, and with SHR_FARM. -/
def demoD : InitArgs := { dataSz := 10, maxMsgs := 3, flags := SHR_MAXMSGS_2 ||| SHR_DROP }
def demoF : InitArgs := { dataSz := 10, maxMsgs := 3, flags := SHR_MAXMSGS_2 ||| SHR_FARM }

example : (final demoA demoOps).ring.unreadMsgs = [[4, 5, 6, 7], [8, 9, 10, 11]] := by decide +kernel

end Shr
