import Verif.SpecOrder

/-!
# Vocabulary: what is written to files
-/

namespace K431

/-- The beginning of an encryption with this key, or all of it. -/
def Encrypted (C : Codec) (key c : List Nat) : Prop := ∃ nonce w, c <+: C.enc (key.take 32) nonce w

/-- The file is the one named with `--output`, and the contents are the printed text of selected items or the beginning of it. -/
def Shown {α : Type} (selected : α → Prop) (render : OutKind → List α → Option (List Nat)) (output : Option (List Nat)) (path c : List Nat) : Prop :=
  output = some path ∧ ∃ kind items body, (∀ x ∈ items, selected x) ∧ render kind items = some body ∧ c <+: body

/-- A listing of keys that can as well be printed by someone who does not know the letters of any key. -/
def KeyListing (U : Unicode) (date : Int → Runes) (selected : Key → Bool) (p : Printed) : Prop :=
  ∃ k : Krypto, (∀ x ∈ k.inst.keys, x.runes = []) ∧ p = listingOf U k (summaryOfKeys date selected k.inst).1 (summaryOfKeys date selected k.inst).2

/-- A listing of messages: the table of some store. -/
def MessageListing (U : Unicode) (fresh : Nat → Runes) (date : Int → Runes) (digest : Msg → Runes) (selected : Msg → Bool) (p : Printed) : Prop :=
  ∃ (i : Inst) (k : Krypto) (header : Runes) (lines : List Runes), summaryOfMessages U fresh date digest selected i = .ok (k.inst, header, lines) ∧ p = listingOf U k header lines

end K431
