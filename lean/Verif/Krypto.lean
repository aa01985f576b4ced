import Verif.Store

/-!
# The whole `Krypto431` value: exported and non-exported fields; `New` and its options (krypto431.go:92-112, 438-614)

Bytes are natural numbers below 256; strings are lists of bytes here (paths, hex strings and passwords are handled bytewise).
-/

namespace K431

/-- `Krypto431`, krypto431.go:97-112, complete but for the mutex.  A `*[]byte` is `none` if nil, else what the slice it points to
holds; a nil slice and an empty slice are both `[]`.  `spareKeys` and `spareMsgs` are what the arrays behind `Keys` and `Messages` hold
beyond their length (capacity minus length elements): `gob` decodes into this memory. -/
structure Krypto where
  persistence : List Nat
  pfk : Option (List Nat)
  salt : Option (List Nat)
  overwrite : Bool
  interactive : Bool
  overwriteKeys : Bool
  inst : Inst
  spareKeys : List Key
  spareMsgs : List Msg
  deriving DecidableEq, Repr

/-- zero value of `Key` -/
def Key.zero : Key := ⟨.nil, [], [], 0, 0, false, false, []⟩
/-- zero value of `Message` -/
def Msg.zero : Msg := ⟨[], [], [], 0, .nil, [], [], []⟩

/-! ## `encoding/hex` -/

/-- value of a hex digit, either case (`reverseHexTable`) -/
def hexVal (c : Nat) : Option Nat :=
  if 48 ≤ c ∧ c ≤ 57 then some (c - 48)
  else if 97 ≤ c ∧ c ≤ 102 then some (c - 87)
  else if 65 ≤ c ∧ c ≤ 70 then some (c - 55)
  else none

/-- `hex.DecodeString`; `none` is an error (invalid byte or odd length). -/
def hexDecode : List Nat → Option (List Nat)
  | [] => some []
  | [_] => none
  | a :: b :: r =>
    match hexVal a, hexVal b with
    | some x, some y => (hexDecode r).map (fun t => (16 * x + y) :: t)
    | _, _ => none

/-- the digits `hex.EncodeToString` writes -/
def hexDigit (n : Nat) : Nat := if n < 10 then 48 + n else 87 + n

/-- `hex.EncodeToString` -/
def hexEncode (bs : List Nat) : List Nat := bs.flatMap (fun b => [hexDigit (b / 16), hexDigit (b % 16)])

/-! ## `New` and options -/

/-- an ASCII string as bytes -/
def ascii (s : String) : List Nat := s.toList.map Char.toNat

/-- `DefaultSalt`, krypto431.go:43. -/
def defaultSalt : List Nat := ascii "d14461856f830fc5a1f9ba1b845fae5f61c54767ded39cf943174e6869b44476"

/-- The instance `New` starts from, krypto431.go:440-459: default sizes (krypto431.go:24-32), no key, the default salt. -/
def newBase : Krypto :=
  { persistence := ascii "~/.krypto431.gob", pfk := none, salt := hexDecode defaultSalt
    overwrite := false, interactive := false, overwriteKeys := false
    inst := ⟨5, 350, 110, 30, [], [], [], 1⟩
    spareKeys := List.replicate 50000 Key.zero, spareMsgs := List.replicate 10000 Msg.zero }

/-- `New`, krypto431.go:439-467: the options are applied in order. -/
def new (opts : List (Krypto → Krypto)) : Krypto := opts.foldl (fun k o => o k) newBase

/-- `WithPFK`, krypto431.go:477-486. -/
def withPFK (key : Option (List Nat)) : Krypto → Krypto :=
  match key with
  | none => fun k => { k with pfk := none }
  | some b => if b.length ≠ 32 then fun k => { k with pfk := none } else fun k => { k with pfk := some b }

/-- `WithPFKString`, krypto431.go:492-506. -/
def withPFKString (s : List Nat) : Krypto → Krypto :=
  if s.length ≠ 32 * 2 then fun k => { k with pfk := none }
  else
    match hexDecode s with
    | none => fun k => { k with pfk := none }
    | some b => fun k => { k with pfk := some b }

/-- `WithSalt`, krypto431.go:512-522. -/
def withSalt (salt : Option (List Nat)) : Krypto → Krypto :=
  match salt with
  | none => fun k => { k with salt := none }
  | some b => if b.length < 32 then fun k => { k with salt := none } else fun k => { k with salt := some b }

/-- `WithSaltString`, krypto431.go:529-539. -/
def withSaltString (s : List Nat) : Krypto → Krypto :=
  match hexDecode s with
  | none => fun k => { k with salt := none }
  | some b => if b.length < 32 then fun k => { k with salt := none } else fun k => { k with salt := some b }

/-- `SetCallSign`, krypto431.go:640-647. -/
def setCallSign (U : Unicode) (cs : Runes) (k : Krypto) : Outcome Unit × Krypto :=
  let cs := toUpperStr U (trimSpace U cs)
  if cs.length < 2 then (.err .other, k) else (.ok (), { k with inst := { k.inst with callSign := cs } })

/-- `WithCallSign`, krypto431.go:541-545: the error is ignored. -/
def withCallSign (U : Unicode) (cs : Runes) : Krypto → Krypto := fun k => (setCallSign U cs k).2

/-- `WithGroupSize`, `WithKeyLength`, `WithColumns`, `WithKeyColumns`, krypto431.go:552-571. -/
def withGroupSize (n : Nat) : Krypto → Krypto := fun k => { k with inst := { k.inst with groupSize := n } }
@[inherit_doc withGroupSize]
def withKeyLength (n : Nat) : Krypto → Krypto := fun k => { k with inst := { k.inst with keyLength := n } }
@[inherit_doc withGroupSize]
def withColumns (n : Nat) : Krypto → Krypto := fun k => { k with inst := { k.inst with columns := n } }
@[inherit_doc withGroupSize]
def withKeyColumns (n : Nat) : Krypto → Krypto := fun k => { k with inst := { k.inst with keyColumns := n } }

/-- `WithPersistence`, krypto431.go:572-576; also `SetPersistence`, persistence.go:133-135. -/
def withPersistence (file : List Nat) : Krypto → Krypto := fun k => { k with persistence := file }
/-- `WithOverwritePersistenceIfExists`, krypto431.go:577-581. -/
def withOverwrite (b : Bool) : Krypto → Krypto := fun k => { k with overwrite := b }
/-- `WithInteractive`, krypto431.go:582-586. -/
def withInteractive (b : Bool) : Krypto → Krypto := fun k => { k with interactive := b }
/-- `WithOverwriteExistingKeysOnImport`, krypto431.go:587-591. -/
def withOverwriteKeys (b : Bool) : Krypto → Krypto := fun k => { k with overwriteKeys := b }

/-- `Assert`, krypto431.go:597-614.  Sizes are natural numbers in the model. -/
def assertSettings (k : Krypto) : Outcome Unit :=
  if k.persistence.length = 0 then .err .other
  else if k.inst.groupSize < 1 then .err .other
  else if k.inst.keyLength < 20 then .err .other
  else if k.inst.columns < 85 then .err .other
  else if k.inst.keyColumns < k.inst.groupSize then .err .other
  else .ok ()

/-! ## PFK and salt -/

/-- `SetSaltFromString`, persistence.go:142-153. -/
def setSaltFromString (s : List Nat) (k : Krypto) : Outcome Unit × Krypto :=
  match hexDecode s with
  | none => (.err .other, k)
  | some b => if b.length < 32 then (.err .other, k) else (.ok (), { k with salt := some b })

/-- `SetPFKFromString`, persistence.go:166-177. -/
def setPFKFromString (s : List Nat) (k : Krypto) : Outcome Unit × Krypto :=
  match hexDecode s with
  | none => (.err .other, k)
  | some b => if b.length ≠ 32 then (.err .other, k) else (.ok (), { k with pfk := some b })

/-- `GetPFKString`, persistence.go:110-115. -/
def getPFKString (k : Krypto) : List Nat :=
  match k.pfk with
  | none => []
  | some b => hexEncode b

/-- `GetSaltString`, persistence.go:118-123. -/
def getSaltString (k : Krypto) : List Nat :=
  match k.salt with
  | none => []
  | some b => hexEncode b

/-- `GeneratePFK` and `GenerateSalt`, persistence.go:295-320 (`MinimumSaltLength` is 32 as well); `draw` is what `crand.Read` delivers for
32 bytes, `none` an error of the random source. -/
def generateHex32 (draw : Option (List Nat)) : Outcome (List Nat) :=
  match draw with
  | none => .panic
  | some bytes => .ok (hexEncode bytes)

/-! ## Passwords -/

/-- A byte buffer behind a pointer: the memory of the array, and whether the slice has been set to nil. -/
structure Buf where
  mem : List Nat
  cleared : Bool
  deriving DecidableEq, Repr

/-- `WipeBytes` → `RandomWipeBytes`, krypto431.go:220-252.  `noise` is what the random source delivers; if it fails (`none`) the function
returns the error and the buffer stays as it is.  Nothing is left to do if the slice is nil already. -/
def wipeBytes (noise : Option (Nat → Nat)) (b : Buf) : Buf :=
  match noise with
  | none => b
  | some f => if b.cleared then b else ⟨(List.range b.mem.length).map f, true⟩

/-- What password handling depends on: PBKDF2 with SHA-256 and 310000 iterations, and whether the entropy check
(`passwordvalidator.Validate`) accepts. -/
structure PwEnv where
  kdf : List Nat → List Nat → List Nat
  strong : List Nat → Bool

/-- the bytes a pointer to a slice gives access to -/
def Buf.val (b : Buf) : List Nat := if b.cleared then [] else b.mem

/-- `DerivePFKFromPassword` (`validate = false`), persistence.go:53-72, and `DerivePFKFromPasswordWithValidation` (`validate = true`),
persistence.go:76-94.  The deferred `WipeBytes` runs last; its error is lost. -/
def derivePFK (E : PwEnv) (validate : Bool) (noise : Option (Nat → Nat)) (pw : Option Buf) (k : Krypto) :
    Outcome Unit × Krypto × Option Buf :=
  match pw with
  | none => (.err .nilPointer, k, none)
  | some b =>
    match k.salt with
    | none => (.err .other, k, some (wipeBytes noise b))
    | some salt =>
      if salt.length < 32 then (.err .other, k, some (wipeBytes noise b))
      else if validate && !E.strong b.val then (.err .other, k, some (wipeBytes noise b))
      else (.ok (), { k with pfk := some (E.kdf b.val salt) }, some (wipeBytes noise b))

/-- `SetPFKFromPassword`, persistence.go:182-189. -/
def setPFKFromPassword (E : PwEnv) (password : List Nat) (k : Krypto) : Outcome Unit × Krypto :=
  let r := derivePFK E false none (some ⟨password, false⟩) k
  (r.1, r.2.1)

/-- Loop of `AskForPassword`, persistence.go:194-229.  The inputs are what `term.ReadPassword` returns, one after the other (`none`: an error).
`none`: still waiting when the inputs are used up; else the password (`none` is the nil pointer) and the number of inputs read. -/
def askForPassword (minimumLength : Nat) : List (Option (List Nat)) → Option (Option (List Nat) × Nat)
  | [] => none
  | none :: _ => some (none, 1)
  | some pw :: r =>
    if pw.length < minimumLength then (askForPassword minimumLength r).map (fun p => (p.1, p.2 + 1))
    else some (some pw, 1)

/-- Result of `AskAndConfirmPassword`: the outcome with the password, the inputs that were wiped, and the number of inputs read.  Inputs are
known by their position. -/
structure Asked where
  result : Outcome (List Nat)
  wiped : List Nat
  read : Nat
  deriving DecidableEq, Repr

/-- Loop of `AskAndConfirmPassword`, persistence.go:231-261 (`AskForPassword` is called with minimum length 0, so it reads one input).  `i` inputs have been read, those in `w` wiped.
After a single further input the loop still waits: for the repetition, or for another try. -/
def askConfirmLoop (strong : List Nat → Bool) : Nat → List (Option (List Nat)) → List Nat → Option Asked
  | _, [], _ => none
  | i, none :: _, w => some ⟨.err .other, w, i + 1⟩
  | _, [some _], _ => none
  | i, some p1 :: x :: r, w =>
    if !strong p1 then askConfirmLoop strong (i + 1) (x :: r) (w ++ [i])
    else
      match x with
      | none => some ⟨.err .other, w, i + 2⟩
      | some p2 =>
        if p1 = p2 then some ⟨.ok p1, w ++ [i + 1], i + 2⟩
        else askConfirmLoop strong (i + 2) r (w ++ [i, i + 1])

/-- `AskAndConfirmPassword`, persistence.go:231-261. -/
def askAndConfirm (strong : List Nat → Bool) (inputs : List (Option (List Nat))) : Option Asked :=
  askConfirmLoop strong 0 inputs []

end K431
