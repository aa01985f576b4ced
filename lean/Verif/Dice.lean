import Verif.Basic

/-!
# The README's procedure for making a key with dice

README.md:320-344 ("Manually generating a key with dice").  A throw is a number 1 … 6; the throws come one after the other.
-/

namespace K431.Dice

/-- The table, README.md:334-336: the first throw selects a range of six numbers, the second a number in it. -/
def entry (a b : Nat) : Nat := 6 * (a - 1) + (b - 1)

/-- The second throw after a 5, README.md:340-343, as it is written: "you re-roll until you get either 1 or 2". -/
def afterFive : List Nat → Option Nat
  | [] => none
  | b :: ts => if b ≤ 2 then some (entry 5 b) else afterFive ts

/-- The procedure as it is written, README.md:338-343: "If the first throw is a 6 you simply discard it and roll the dice again.  Same thing if the first roll is a 5 and the second roll is 3, 4, 5 or 6 - you
re-roll until you get either 1 or 2."  `none`: more throws are needed. -/
def asWritten : List Nat → Option Nat
  | [] => none
  | [_] => none
  | a :: b :: ts => if a = 6 then asWritten (b :: ts) else if a = 5 then afterFive (b :: ts) else some (entry a b)

/-- The other way to read it: after a 5 and a 3, 4, 5 or 6 both throws are discarded, and one begins again. -/
def bothAgain : List Nat → Option Nat
  | [] => none
  | [_] => none
  | a :: b :: ts => if a = 6 then bothAgain (b :: ts) else if a = 5 ∧ 2 < b then bothAgain ts else some (entry a b)

/-! ## Counting

All throws are equally likely: a number is as likely as another if equally many sequences of throws, of each length, lead to it. -/

/-- all sequences of `n` throws -/
def allThrows : Nat → List (List Nat)
  | 0 => [[]]
  | n + 1 => [1, 2, 3, 4, 5, 6].flatMap (fun a => (allThrows n).map (a :: ·))

/-- how many of the sequences of `n` throws lead to the number `x` -/
def ways (f : List Nat → Option Nat) (n x : Nat) : Nat := (allThrows n).countP (fun ts => f ts == some x)

end K431.Dice
