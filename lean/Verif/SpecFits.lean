import Verif.SpecStore

/-!
# How a text is laid out on pads

Counting letters only: how many letters of which pad a text takes, when the next pad is begun, and whether all fits.  Nothing here uses the model.
-/

namespace K431
open Spec

/-- Characters of the second line of the coding legend, and the small letters of those that are letters. -/
def secondLine : List Int := lit "0123456789?-ÅÄÖ.Q,Z:+/qzåäö"

/-- Where the writer is: the length of the pad, the letters used of it, all letters written so far, whether the second line of the legend applies, and whether letters are small. -/
structure Pen where
  len : Nat
  used : Nat
  total : Nat
  second : Bool
  small : Bool

/-- A new pad of `n` letters, after `total` letters have been written. -/
def Pen.fresh (n total : Nat) : Pen := ⟨n, 0, total, false, false⟩

/-- A change between capital and small letters is needed for the character. -/
def Pen.toggles (p : Pen) (c : Int) : Bool := (p.small && decide (c ∈ capitals)) || (!p.small && decide (c ∈ smalls))

/-- The letters that a character takes: one for itself, one for a change of the line of the legend if the line is another one, and if the case changes, one for that and another
one if this has to be done from the first line. -/
def Pen.cost (p : Pen) (c : Int) : Nat :=
  if p.toggles c then (if p.second then 0 else 1) + 1 + (if c ∈ secondLine then 0 else 1) + 1
  else (if p.second = decide (c ∈ secondLine) then 0 else 1) + 1

/-- The character is written. -/
def Pen.write (p : Pen) (c : Int) : Pen :=
  ⟨p.len, p.used + p.cost c, p.total + p.cost c, decide (c ∈ secondLine), if p.toggles c then !p.small else p.small⟩

/-- The letters that announce the next pad: the change to the second line if necessary, "change key", and the id. -/
def Pen.announce (p : Pen) (g : Nat) : Nat := (if p.second then 0 else 1) + 1 + g

/-- What comes out of laying out a text: whether all letters found room on their pads, how many letters there are, and how many pads they take. -/
structure Layout where
  fits : Bool
  letters : Nat
  pads : Nat
  deriving DecidableEq

/-- A text is laid out on the pad in use and on the next ones, given by their lengths, in order.  Before each character it is seen to whether more than a group and two letters of the pad are left; if not,
the next pad is announced and begun.  At the end the last group is filled up.  The result is `none` if there are not enough pads. -/
def layOut (g : Nat) : (pads : List Nat) → Pen → List Int → Option Layout
  | _, p, [] => let fill := (g - p.total % g) % g; some ⟨decide (p.used + fill ≤ p.len), p.total + fill, 1⟩
  | [], p, c :: cs => if p.len ≤ p.used + g + 2 then none else layOut g [] (p.write c) cs
  | n :: pads, p, c :: cs =>
    if p.len ≤ p.used + g + 2 then
      (layOut g pads ((Pen.fresh n (p.total + p.announce g)).write c) cs).map
        (fun l => ⟨decide (p.used + p.announce g ≤ p.len) && l.fits, l.letters, l.pads + 1⟩)
    else layOut g (n :: pads) (p.write c) cs

/-- The lengths of the pads that may be chosen for a message, in the order of the store. -/
def padLengths (g : Nat) (recipients : List Runes) (keys : List Key) : List Nat :=
  (keys.filter (fun k => decide (Selectable g recipients k))).map (fun k => k.runes.length)

end K431
