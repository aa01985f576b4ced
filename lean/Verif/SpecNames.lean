import Verif.Basic

/-!
# Specification vocabulary: names up to case
-/

namespace K431

/-- equal up to case -/
def SameFold (U : Unicode) (a b : Runes) : Prop := a.map U.toUpper = b.map U.toUpper

instance (U : Unicode) (a b : Runes) : Decidable (SameFold U a b) := by unfold SameFold; infer_instance

/-- the name occurs in the list, up to case -/
def InFold (U : Unicode) (a : Runes) (l : List Runes) : Prop := ∃ b ∈ l, SameFold U a b

instance (U : Unicode) (a : Runes) (l : List Runes) : Decidable (InFold U a l) := by unfold InFold; infer_instance

/-- no two names of the list are equal up to case -/
def DistinctNames (U : Unicode) (l : List Runes) : Prop := l.Pairwise (fun a b => ¬ SameFold U a b)

instance (U : Unicode) (l : List Runes) : Decidable (DistinctNames U l) := by unfold DistinctNames; infer_instance

end K431
