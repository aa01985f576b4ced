import Verif.Keys
import Verif.SpecStore

/-! # Specification vocabulary for imports -/

namespace K431

/-- Which incoming keys an import accepts, given the ids in the store. -/
def Accepts (U : Unicode) (o : ImportOpts) (filter : Key → Bool) (groupSize : Nat) (ids : List Runes) (k : Key) : Prop :=
  k.id.val.length = groupSize ∧ filter k = true ∧
    (InFold U k.id.val ids → o.overwrite = true ∨ (o.canAsk = true ∧ o.answer k = some true))

instance (U : Unicode) (o : ImportOpts) (filter : Key → Bool) (g : Nat) (ids : List Runes) (k : Key) :
    Decidable (Accepts U o filter g ids k) := by unfold Accepts; infer_instance

/-- What an imported copy `k'` of an incoming key `k` must be: `own` is our call-sign, `call` the exporter's. -/
structure Imported (U : Unicode) (own call : Runes) (k k' : Key) : Prop where
  same : k' = { k with id := k'.id, keepers := k'.keepers }
  id : k'.id.val = k.id.val
  exporter : InFold U call k'.names
  others : ∀ n ∈ k.names, ¬ SameFold U n own → n ∈ k'.names
  only : ∀ n ∈ k'.names, n ∈ k.names ∨ n = call
  own : DistinctNames U k.names → ¬ SameFold U call own → ¬ InFold U own k'.names
  distinct : DistinctNames U k.names → DistinctNames U k'.names

end K431
