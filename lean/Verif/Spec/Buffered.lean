import Verif.Spec.Queue
/-! # Vocabulary: batches entering a ring one after another -/
namespace Shr

/-- The batches `bs` enter, one after another, a queue that holds `U`: before each of them as few of the oldest messages as
necessary are removed for it to fit, then it is appended.  The queue then holds `U'`; `lost` are the messages removed, in order. -/
def Enter (cap maxm : Nat) : List Msg → List (List Msg) → List Msg → List Msg → Prop
  | U, [], U', lost => U' = U ∧ lost = []
  | U, b :: bs, U', lost => ∃ d lost', d ≤ U.length ∧
      (bytesOf (U.drop d) + bytesOf b ≤ cap ∧ (U.drop d).length + b.length ≤ maxm) ∧
      (∀ d' < d, ¬ (bytesOf (U.drop d') + bytesOf b ≤ cap ∧ (U.drop d').length + b.length ≤ maxm)) ∧
      Enter cap maxm (U.drop d ++ b) bs U' lost' ∧ lost = U.take d ++ lost'

end Shr
