import Mathlib.Data.Set.Card
import Verif.SpecRandom
import Verif.SpecNames

/-! # Specification vocabulary: ending with probability one -/

namespace K431.Spec

/-- The process ends with probability one: `returned t` says that it has returned when the words of `t` have been delivered.  For
every `q` there is a number of words from which on the probability that it has not returned is at most `1/q`; all tapes of a length
are equally likely, and there are `(2^64)^L` of length `L`. -/
def Ends (returned : List Nat → Prop) : Prop :=
  ∀ q : Nat, ∃ N : Nat, ∀ L : Nat, N ≤ L → q * (Tapes L (fun t => ¬ returned t)).ncard ≤ (2 ^ 64) ^ L

/-- the ids of `g` letters which no id of the list resembles -/
def FreeIds (U : Unicode) (g : Nat) (used : List (List Int)) : Set (List Int) := {id | LetterString g id ∧ ¬ InFold U id used}

end K431.Spec
