import Verif.CSem
/-!
# Vocabulary of the specification: queues of messages

Nothing here mentions positions, slots, offsets or flags.
-/
namespace Shr

/-- Total number of bytes in a list of messages. -/
def bytesOf (l : List Msg) : Nat := (l.map List.length).sum

/-- The messages `new` fit beside the stored ones in a ring of `cap` bytes and `maxm` messages. -/
def Fits (cap maxm : Nat) (stored new : List Msg) : Prop :=
  bytesOf stored + bytesOf new ≤ cap ∧ stored.length + new.length ≤ maxm

instance (cap maxm : Nat) (stored new : List Msg) : Decidable (Fits cap maxm stored new) := by
  unfold Fits; infer_instance

/-- The number of oldest stored messages discarded to make room for `new`: one at a time, oldest
first, until the rest fits (`evictCount_spec` in `Proof/Arith.lean`: the least such number). -/
def evictCount (cap maxm : Nat) (new : List Msg) : List Msg → Nat
  | [] => 0
  | m :: ms => if Fits cap maxm (m :: ms) new then 0 else evictCount cap maxm new ms + 1

/-- The number of messages delivered by a read into `len` bytes and `niov` entries: whole messages,
oldest first, until one does not fit or the entries run out (`takeCount_spec`: the greatest). -/
def takeCount : List Msg → Nat → Nat → Nat
  | [], _, _ => 0
  | _ :: _, _, 0 => 0
  | m :: ms, len, niov + 1 =>
    if m.length ≤ len then takeCount ms (len - m.length) niov + 1 else 0

/-- A write the library must accept for consideration: between 1 and `cap` bytes in at most `maxm`
messages, none of them empty. -/
def Legal (cap maxm : Nat) (new : List Msg) : Prop :=
  new ≠ [] ∧ (∀ b ∈ new, b ≠ []) ∧ bytesOf new ≤ cap ∧ new.length ≤ maxm

instance (cap maxm : Nat) (new : List Msg) : Decidable (Legal cap maxm new) := by
  unfold Legal; infer_instance

/-- Offsets and lengths of consecutive messages laid out from offset `off`. -/
def layout : Nat → List Msg → List (Nat × Nat)
  | _, [] => []
  | off, m :: ms => (off, m.length) :: layout (off + m.length) ms

end Shr
