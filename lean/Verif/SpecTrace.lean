import Verif.SpecPersist
import Verif.SpecNames

/-!
# What may differ in what is deleted
-/

namespace K431.Spec

/-- Two stores that are the same but for the keys with the ids `kids` and the messages with the ids `mids`: of these, only the ids and the places are the same. -/
structure SameBut (U : Unicode) (kids mids : List Runes) (x y : Inst) : Prop where
  groupSize : x.groupSize = y.groupSize
  keyLength : x.keyLength = y.keyLength
  columns : x.columns = y.columns
  keyColumns : x.keyColumns = y.keyColumns
  callSign : x.callSign = y.callSign
  keys : List.Forall₂ (fun k k' => k.id.val = k'.id.val ∧ (SameKey k k' ∨ InFold U k.id.val kids)) x.keys y.keys
  messages : List.Forall₂ (fun m m' => m.id = m'.id ∧ (SameMsg m m' ∨ m.id ∈ mids)) x.messages y.messages

/-- Two files with the same name and key. -/
structure SameFile (k k' : Krypto) : Prop where
  name : k.persistence = k'.persistence
  key : k.pfk = k'.pfk

end K431.Spec
