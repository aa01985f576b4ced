import Verif.Spec

/-!
# Specification vocabulary: radiograms
-/

namespace K431.Spec

/-- Tab, line feed, form feed, carriage return or space. -/
def Blank (c : Int) : Prop := c = 9 ∨ c = 10 ∨ c = 12 ∨ c = 13 ∨ c = 32

/-- A letter (of either case), a digit or `/`: what call-signs are made of. -/
def CallChar (c : Int) : Prop := (65 ≤ c ∧ c ≤ 90) ∨ (97 ≤ c ∧ c ≤ 122) ∨ (48 ≤ c ∧ c ≤ 57) ∨ c = 47

/-- A capital letter, a digit or `/`. -/
def CapitalCallChar (c : Int) : Prop := (65 ≤ c ∧ c ≤ 90) ∨ (48 ≤ c ∧ c ≤ 57) ∨ c = 47

/-- Two characters outside ASCII that are equal to a letter when case is ignored: long s and the Kelvin sign. -/
def FoldsToLetter (c : Int) : Prop := c = longS ∨ c = kelvin

/-- What a list of call-signs is made of. -/
def ListChar (c : Int) : Prop := CallChar c ∨ c = 44 ∨ Blank c

/-- The text `s` has the word DE after `a` and before `c`. -/
def DeWord (s a c : List Int) : Prop :=
  ∃ d e, s = a ++ d :: e :: c ∧ (d = 68 ∨ d = 100) ∧ (e = 69 ∨ e = 101) ∧
    (∀ x ∈ a.getLast?, Blank x) ∧ ∃ x ∈ c.head?, Blank x

/-- the word DE, ignoring case -/
def IsDe (w : List Int) : Prop := ∃ d e, w = [d, e] ∧ (d = 68 ∨ d = 100) ∧ (e = 69 ∨ e = 101)

/-- The text is `a DE blanks call rest`: `a` is a list of call-signs, `call` a call-sign and `rest` does not continue it. -/
structure Addressed (s a blanks call rest : List Int) : Prop where
  de : DeWord s a (blanks ++ call ++ rest)
  list : ∀ x ∈ a, ListChar x
  allBlank : ∀ x ∈ blanks, Blank x
  someBlank : blanks ≠ []
  allCall : ∀ x ∈ call, CallChar x
  someCall : call ≠ []
  stop : ∀ x ∈ rest.head?, ¬ (CallChar x ∨ FoldsToLetter x)

instance (c : Int) : Decidable (Blank c) := by unfold Blank; infer_instance
instance (c : Int) : Decidable (CallChar c) := by unfold CallChar; infer_instance
instance (c : Int) : Decidable (CapitalCallChar c) := by unfold CapitalCallChar; infer_instance
instance (c : Int) : Decidable (FoldsToLetter c) := by unfold FoldsToLetter; infer_instance
instance (c : Int) : Decidable (ListChar c) := by unfold ListChar; infer_instance

end K431.Spec
