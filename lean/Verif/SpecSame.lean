import Verif.SpecStore
import Verif.SpecNames

/-! # Specification vocabulary: when two inputs should be treated alike -/

namespace K431.Spec

/-- The same letters, written differently: blanks and `=` put in or left out anywhere, and any letter in any form with the same
capital.  All else is the same. -/
inductive Respaced (U : Unicode) : List Int → List Int → Prop
  | nil : Respaced U [] []
  | same (c : Int) {a b : List Int} : Respaced U a b → Respaced U (c :: a) (c :: b)
  | letter {c d : Int} {a b : List Int} : IsLetter (U.toUpper c) → U.toUpper c = U.toUpper d → Respaced U a b → Respaced U (c :: a) (d :: b)
  | drop {c : Int} {a b : List Int} : U.isSpace c = true ∨ c = 61 → Respaced U a b → Respaced U (c :: a) b
  | put {c : Int} {a b : List Int} : U.isSpace c = true ∨ c = 61 → Respaced U a b → Respaced U a (c :: b)

/-- Two stores have keys with the same ids and letters. -/
def SamePads (keys keys' : List Key) : Prop := ∀ id pad, Holds keys id pad ↔ Holds keys' id pad

/-- The lists name the same stations if case is ignored. -/
def SameStations (U : Unicode) (rs rs' : List Runes) : Prop := (∀ r ∈ rs, InFold U r rs') ∧ ∀ r ∈ rs', InFold U r rs

end K431.Spec
