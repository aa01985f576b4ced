import Verif.Traces

/-!
# Vocabulary: what an array that has been wiped looks like
-/

namespace K431

/-- Nothing is left in the array: noise at the beginning, and cells that were never written. -/
def Erased (noises : Nat → Nat → Rune) (a : Runes) : Prop :=
  ∃ j n z, a = (List.range n).map (noises j) ++ List.replicate z 0

/-- The array still begins with the text. -/
def StillHolds (text a : Runes) : Prop := text <+: a

end K431
