import Verif.Basic

/-!
# Model of `diana/diana.go`

Pointers are `Option`: `none` is a nil pointer.  A function writing through a pointer takes
the present value of the destination and returns its value after the call.
-/

namespace K431

/-- diana.go:75 / diana.go:92, the range check shared by both versions:
`(*x < 'A' || *x > 'Z') || (*y < 'A' || *y > 'Z')`. -/
def trigraphOutOfRange (x y : Int) : Bool :=
  (decide (x < 65) || decide (x > 90)) || (decide (y < 65) || decide (y > 90))

/-- diana.go:82 / diana.go:99: `'A' + ((((25 - (x-'A') - (y-'A')) % 26) + 26) % 26)`;
Go's `%` truncates toward zero, i.e. it is `Int.tmod`. -/
def trigraphValue (x y : Int) : Int :=
  65 + Int.tmod (Int.tmod (25 - (x - 65) - (y - 65)) 26 + 26) 26

/-- `TrigraphRune`, diana.go:88-101.  Result: returned error and final value of `*writeTo`
(`none` if the pointer is nil). -/
def trigraphRune (writeTo x y : Option Rune) : Outcome Unit × Option Rune :=
  match writeTo, x, y with
  | some w, some x, some y =>
    if trigraphOutOfRange x y then (.err .outOfRange, some w)
    else (.ok (), some (trigraphValue x y))
  | w, _, _ => (.err .nilPointer, w)

/-- `TrigraphByte`, diana.go:71-84.  A byte is an `Int` in `0..255`; the final conversion
`byte(...)` is reduction modulo 256. -/
def trigraphByte (writeTo x y : Option Int) : Outcome Unit × Option Int :=
  match writeTo, x, y with
  | some w, some x, some y =>
    if trigraphOutOfRange x y then (.err .outOfRange, some w)
    else (.ok (), some (trigraphValue x y % 256))
  | w, _, _ => (.err .nilPointer, w)

/-- `ZeroKeyByte`, diana.go:106-108. -/
def zeroKeyByte (writeTo character : Option Int) : Outcome Unit × Option Int :=
  trigraphByte writeTo character character

/-- `ZeroKeyRune`, diana.go:114-116. -/
def zeroKeyRune (writeTo character : Option Rune) : Outcome Unit × Option Rune :=
  trigraphRune writeTo character character

/-- State touched by `AppendTrigraphByteByKey`: output slice and key index. -/
structure AppendState where
  out : Option (List Int)
  idx : Option Int
  deriving DecidableEq, Repr

/-- `AppendTrigraphByteByKey`, diana.go:127-148.  `key[i]` with `i` outside the key panics. -/
def appendTrigraphByteByKey (writeTo : Option (List Int)) (character : Option Int)
    (key : Option (List Int)) (keyIndex : Option Int) : Outcome Unit × AppendState :=
  match writeTo, character, key, keyIndex with
  | some out, some c, some key, some i =>
    if i < 0 then (.err .negativeKeyIndex, ⟨some out, some i⟩)
    else if i > (out.length : Int) then (.err .keyIndexOutOfBounds, ⟨some out, some i⟩)
    else
      match key[i.toNat]? with
      | none => (.panic, ⟨some out, some i⟩)
      | some k =>
        match trigraphByte (some 0) (some c) (some k) with
        | (.ok _, some b) => (.ok (), ⟨some (out ++ [b]), some (i + 1)⟩)
        | (.ok _, none) => (.panic, ⟨some out, some i⟩)
        | (.err e, _) => (.err e, ⟨some out, some i⟩)
        | (.panic, _) => (.panic, ⟨some out, some i⟩)
  | w, _, _, i => (.err .nilPointer, ⟨w, i⟩)

/-- The trigraph as used by the message cipher: a local destination `var output rune` and
pointers into slices, never nil (cipher.go:637-643, 704-708). -/
def trigraph (x y : Rune) : Outcome Rune :=
  if trigraphOutOfRange x y then .err .outOfRange else .ok (trigraphValue x y)

end K431
