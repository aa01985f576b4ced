import Verif.Krypto

/-! # Model of `OldAskAndConfirmPassword` (persistence.go:263-286), which nothing in the program calls -/

namespace K431

/-- Loop of `OldAskAndConfirmPassword`, persistence.go:268-284.  The first `AskForPassword` (persistence.go:194-229) reads until an entry has the minimum length and drops those that have not, without
wiping them; the second has minimum length 0 and reads one.  A negative minimum length acts like 0.  `i` inputs have been read, those in `w` wiped. -/
def oldAskLoop (minimumLength : Nat) : Nat → List (Option (List Nat)) → List Nat → Option Asked
  | _, [], _ => none
  | i, none :: _, w => some ⟨.err .other, w, i + 1⟩
  | _, [some _], _ => none
  | i, some p1 :: x :: r, w =>
    if p1.length < minimumLength then oldAskLoop minimumLength (i + 1) (x :: r) w
    else
      match x with
      | none => some ⟨.err .other, w, i + 2⟩
      | some p2 =>
        if p1 = p2 then some ⟨.ok p1, w ++ [i + 1], i + 2⟩
        else oldAskLoop minimumLength (i + 2) r (w ++ [i, i + 1])

/-- `OldAskAndConfirmPassword`, persistence.go:265-286. -/
def oldAskAndConfirm (minimumLength : Nat) (inputs : List (Option (List Nat))) : Option Asked := oldAskLoop minimumLength 0 inputs []

end K431
