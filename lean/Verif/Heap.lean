import Verif.Krypto

/-!
# Memory: slices, wiping and exporting

The other model files give slices by value (with the address of the array where sharing matters for a single instance).  Here the memory is explicit: arrays of runes, arrays of
slice headers (`[][]rune`), arrays of bytes and variables of type `[]byte`.  Used for wiping (krypto431.go) and `ExportKeys` (persistence.go).
-/

namespace K431.Mem

/-- A slice: position of its first cell and length.  Capacities play no role here. -/
structure Slice where
  base : Nat
  len : Nat
deriving DecidableEq

/-- the nil slice -/
def Slice.nil : Slice := ⟨0, 0⟩

/-- The memory.  `runes`, `headers`, `bytes`: the cells of all arrays of that kind; `ptrs`: variables of type `[]byte` of which pointers exist.
The `next` numbers are the first cells never used.  `calls` counts the calls of the random source. -/
structure Heap where
  runes : Nat → Rune
  headers : Nat → Slice
  bytes : Nat → Nat
  ptrs : Nat → Slice
  nextRune : Nat
  nextHeader : Nat
  nextByte : Nat
  nextPtr : Nat
  calls : Nat

/-- `Key`, krypto431.go:118-128; dates as in `Store.lean`. -/
structure HKey where
  id : Slice
  runes : Slice
  keepers : Slice
  created : Int
  expires : Int
  used : Bool
  compromised : Bool
  comment : Slice
deriving DecidableEq

/-- `Message`, krypto431.go:143-154.  `Binary` is never used. -/
structure HMsg where
  id : Slice
  recipients : Slice
  from_ : Slice
  dtg : Int
  keyId : Slice
  plainText : Slice
  cipherText : Slice
  radiogram : Slice
deriving DecidableEq

/-- `Krypto431`, krypto431.go:97-112; `persistence` as bytes; nil pointers are `none`. -/
structure HInst where
  persistence : List Nat
  pfk : Option Nat
  salt : Option Nat
  overwrite : Bool
  interactive : Bool
  overwriteKeys : Bool
  groupSize : Nat
  keyLength : Nat
  columns : Nat
  keyColumns : Nat
  keys : List HKey
  messages : List HMsg
  callSign : Slice

/-! ## Wiping -/

/-- The random source: the result of each call, 32-bit words or bytes; `none`: the call fails.  A failing call writes nothing, since `binary.Read` reads into a buffer first
(crand.go:45-57). -/
abbrev Source := Nat → Option (Nat → Nat)

/-- the word as `int32` -/
def int32 (w : Nat) : Rune := if w % 2 ^ 32 < 2 ^ 31 then (w % 2 ^ 32 : Nat) else (w % 2 ^ 32 : Nat) - 2 ^ 32

/-- writing to all cells of a slice -/
def fill {α : Type} (s : Slice) (f : Nat → α) (mem : Nat → α) : Nat → α :=
  fun a => if s.base ≤ a ∧ a < s.base + s.len then f (a - s.base) else mem a

/-- what the wiping functions hold pointers to: a field of the key or message with this slice, or a cell of an array of slices -/
inductive Target where
  | field (s : Slice)
  | cell (j : Nat)
deriving DecidableEq

/-- the slice found there -/
def Target.slice (h : Heap) : Target → Slice
  | .field s => s
  | .cell j => h.headers j

/-- Overwriting one rune slice and setting it to nil: the loop bodies of krypto431.go:288-304 and 309-330, and 346-352, 375-378.  If the source fails, zeroes are written.  Setting a field
to nil is not visible in memory. -/
def wipeTarget (crand : Bool) (src : Source) (t : Target) (h : Heap) : Heap :=
  let s := t.slice h
  let h : Heap :=
    if crand then
      match src h.calls with
      | some w => { h with runes := fill s (fun i => int32 (w i)) h.runes, calls := h.calls + 1 }
      | none => { h with runes := fill s (fun _ => 0) h.runes, calls := h.calls + 1 }
    else { h with runes := fill s (fun _ => 0) h.runes }
  match t with
  | .field _ => h
  | .cell j => { h with headers := fun i => if i = j then Slice.nil else h.headers i }

/-- wiping one after the other -/
def wipeTargets (crand : Bool) (src : Source) (ts : List Target) (h : Heap) : Heap :=
  ts.foldl (fun h t => wipeTarget crand src t h) h

/-- `&k.Keepers[i]` for all i -/
def keeperCells (s : Slice) : List Target := (List.range s.len).map (fun i => .cell (s.base + i))

/-- `Key.Wipe`, krypto431.go:267-281: `RandomWipe` (283-305) or `ZeroWipe` (308-329), which differ in the order. -/
def keyTargets (crand : Bool) (k : HKey) : List Target :=
  if crand then [.field k.runes, .field k.comment, .field k.id] ++ keeperCells k.keepers
  else [.field k.runes] ++ keeperCells k.keepers ++ [.field k.comment, .field k.id]

/-- `Message.Wipe`, krypto431.go:334-389. -/
def msgTargets (m : HMsg) : List Target := [.field m.plainText, .field m.cipherText, .field m.keyId]

/-- `WipeBytes`, krypto431.go:220-263: if the source fails everything stays as it is.  Reading no bytes does not fail. -/
def wipeBytes (crand : Bool) (src : Source) (p : Option Nat) (h : Heap) : Heap :=
  match p with
  | none => h
  | some p =>
    let s := h.ptrs p
    let done (h : Heap) : Heap := { h with ptrs := fun q => if q = p then Slice.nil else h.ptrs q }
    if crand then
      match src h.calls with
      | some w => done { h with bytes := fill s (fun i => w i % 256) h.bytes, calls := h.calls + 1 }
      | none => if s.len = 0 then done { h with calls := h.calls + 1 } else { h with calls := h.calls + 1 }
    else done { h with bytes := fill s (fun _ => 0) h.bytes }

/-- `Krypto431.Wipe` (and `Close`), krypto431.go:658-682; `crand` is the package variable `useCrandWipe` (line 22, always true). -/
def wipe (crand : Bool) (src : Source) (h : Heap) (k : HInst) : Heap × HInst :=
  let h := k.keys.foldl (fun h x => wipeTargets crand src (keyTargets crand x) h) h
  let h := k.messages.foldl (fun h m => wipeTargets crand src (msgTargets m) h) h
  let h := wipeBytes crand src k.pfk h
  let h := wipeBytes crand src k.salt h
  (h, { k with keys := [], messages := [] })

/-! ## Reading -/

/-- contents of a slice of runes -/
def readRunes (h : Heap) (s : Slice) : Runes := (List.range s.len).map (fun i => h.runes (s.base + i))
/-- contents of a slice of rune slices -/
def readNames (h : Heap) (s : Slice) : List Runes := (List.range s.len).map (fun i => readRunes h (h.headers (s.base + i)))
/-- contents of a slice of bytes -/
def readBytes (h : Heap) (s : Slice) : List Nat := (List.range s.len).map (fun i => h.bytes (s.base + i))
/-- contents of a byte slice given by pointer -/
def readPtr (h : Heap) (p : Option Nat) : Option (List Nat) := p.map (fun p => readBytes h (h.ptrs p))

/-- a key by value -/
structure KeyVal where
  id : Runes
  runes : Runes
  keepers : List Runes
  created : Int
  expires : Int
  used : Bool
  compromised : Bool
  comment : Runes
deriving DecidableEq

/-- a message by value -/
structure MsgVal where
  id : Runes
  recipients : List Runes
  from_ : Runes
  dtg : Int
  keyId : Runes
  plainText : Runes
  cipherText : Runes
  radiogram : Runes
deriving DecidableEq

/-- the key as the program sees it -/
def keyVal (h : Heap) (k : HKey) : KeyVal :=
  ⟨readRunes h k.id, readRunes h k.runes, readNames h k.keepers, k.created, k.expires, k.used, k.compromised, readRunes h k.comment⟩

/-- the message as the program sees it -/
def msgVal (h : Heap) (m : HMsg) : MsgVal :=
  ⟨readRunes h m.id, readNames h m.recipients, readRunes h m.from_, m.dtg, readRunes h m.keyId, readRunes h m.plainText, readRunes h m.cipherText, readRunes h m.radiogram⟩

/-! ## Exporting -/

/-- a new array with this contents; `RuneCopy`, functions.go:416-423 -/
def newRunes (v : Runes) (h : Heap) : Heap × Slice :=
  ({ h with runes := fun a => if h.nextRune ≤ a ∧ a < h.nextRune + v.length then v.getD (a - h.nextRune) 0 else h.runes a, nextRune := h.nextRune + v.length },
   ⟨h.nextRune, v.length⟩)

/-- `BytePtr(ByteCopy(p))`, functions.go:430-441: a pointer to a new variable with a new array; empty for a nil pointer -/
def newBytes (v : List Nat) (h : Heap) : Heap × Nat :=
  ({ h with bytes := fun a => if h.nextByte ≤ a ∧ a < h.nextByte + v.length then v.getD (a - h.nextByte) 0 else h.bytes a, nextByte := h.nextByte + v.length
            ptrs := fun q => if q = h.nextPtr then ⟨h.nextByte, v.length⟩ else h.ptrs q, nextPtr := h.nextPtr + 1 },
   h.nextPtr)

/-- `ExportKeys`, persistence.go:488-517, without options (these change only settings of the new instance, see `Persist.lean`).  `newKey := k.Keys[i]` copies the slice headers: the arrays
are shared. -/
def exportKeys (filter : KeyVal → Bool) (h : Heap) (k : HInst) : Heap × HInst :=
  let a := newBytes ((readPtr h k.pfk).getD []) h
  let b := newBytes ((readPtr a.1 k.salt).getD []) a.1
  let c := newRunes (readRunes b.1 k.callSign) b.1
  (c.1, { persistence := [], pfk := some a.2, salt := some b.2, overwrite := false, interactive := k.interactive, overwriteKeys := false
          groupSize := k.groupSize, keyLength := k.keyLength, columns := k.columns, keyColumns := k.keyColumns
          keys := k.keys.filter (fun x => filter (keyVal c.1 x)), messages := [], callSign := c.2 })

end K431.Mem
