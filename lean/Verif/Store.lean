import Verif.Functions

/-!
# Instance, keys and messages (krypto431.go:92-153) and the key look-up functions
-/

namespace K431

/-- A slice whose backing array is identified by an address, so that sharing between
`Message.KeyId` and `Key.Id` (cipher.go:540: `m.KeyId = designatedKey.Id`) is visible.
A nil or empty slice has `val = []`; its address is irrelevant. -/
structure Sl where
  addr : Nat
  val : Runes
  deriving DecidableEq, Repr

/-- nil slice -/
def Sl.nil : Sl := ⟨0, []⟩

/-- `Key`, krypto431.go:117-127.  `instance` is omitted: in the model every key in an instance's
list belongs to that instance.  Times are Unix-like integers.  The id and the keepers carry the address of
their array: the id is shared with messages (cipher.go:540), a keeper with other keys (persistence.go:605).
No modelled function makes an id share an array with a call-sign, so these addresses
are separate name spaces.  The other slices are values: no modelled operation on a single instance shares
them (the heap model in `Heap.lean` covers sharing between instances). -/
structure Key where
  id : Sl
  runes : Runes
  keepers : List Sl
  created : Int
  expires : Int
  used : Bool
  compromised : Bool
  comment : Runes
  deriving DecidableEq, Repr

/-- the call-signs of the keepers -/
def Key.names (k : Key) : List Runes := k.keepers.map Sl.val

/-- `Message`, krypto431.go:142-153.  `Binary` is never read or written by the modelled code. -/
structure Msg where
  id : Runes
  recipients : List Runes
  from_ : Runes
  dtg : Int
  keyId : Sl
  plainText : Runes
  cipherText : Runes
  radiogram : Runes
  deriving DecidableEq, Repr

/-- `Krypto431`, krypto431.go:97-112, the exported fields.  Sizes are natural numbers: negative
values are rejected by `Assert` (krypto431.go:597-614).  `nextAddr` is not in the program: it
is the allocator, every array allocated so far has a smaller address. -/
structure Inst where
  groupSize : Nat
  keyLength : Nat
  columns : Nat
  keyColumns : Nat
  keys : List Key
  messages : List Msg
  callSign : Runes
  nextAddr : Nat
  deriving DecidableEq, Repr

/-- Loop of `FindKey`, cipher.go:433-454; `i` is the loop index. -/
def findKeyFrom (U : Unicode) (groupSize : Nat) (recipients : List Runes) : Nat → List Key → Option Nat
  | _, [] => none
  | i, k :: ks =>
    if k.used then findKeyFrom U groupSize recipients (i + 1) ks
    else if k.id.val.length ≠ groupSize then findKeyFrom U groupSize recipients (i + 1) ks
    else if recipients.length = 0 then
      if k.keepers.length = 0 then some i else findKeyFrom U groupSize recipients (i + 1) ks
    else if allNeedlesInHaystack U (some recipients) (some k.names) false then some i
    else findKeyFrom U groupSize recipients (i + 1) ks

/-- `FindKey`, cipher.go:431-456; returns the index of the key. -/
def findKey (U : Unicode) (groupSize : Nat) (keys : List Key) (recipients : List Runes) : Option Nat :=
  findKeyFrom U groupSize recipients 0 keys

/-- the normalised form of a key id used for look-up, cipher.go:461 and 473:
`strings.ToUpper(strings.TrimSpace(string(keyId)))` -/
def lookupName (U : Unicode) (keyId : Runes) : Runes := toUpperStr U (trimSpace U (goStr keyId))

/-- Loop shared by `GetKey` (cipher.go:462-466) and `MarkKeyUsed` (cipher.go:474-479). -/
def getKeyFrom (name : Runes) : Nat → List Key → Option Nat
  | _, [] => none
  | i, k :: ks => if name = goStr k.id.val then some i else getKeyFrom name (i + 1) ks

/-- `GetKey`, cipher.go:460-468; `none` is the error "key not found". -/
def getKey (U : Unicode) (keys : List Key) (keyId : Runes) : Option Nat :=
  getKeyFrom (lookupName U keyId) 0 keys

/-- `keys[i].Used = b` through a key pointer. -/
def setUsed (keys : List Key) (i : Nat) (b : Bool) : List Key :=
  keys.modify i (fun k => { k with used := b })

/-- `MarkKeyUsed`, cipher.go:472-481; an unknown id is an error and changes nothing. -/
def markKeyUsed (U : Unicode) (keys : List Key) (keyId : Runes) (b : Bool) : Outcome Unit × List Key :=
  match getKey U keys keyId with
  | some i => (.ok (), setUsed keys i b)
  | none => (.err .keyNotFound, keys)

/-- What `crand.ReadRunes` leaves in an array of `n` runes: arbitrary values, given by the
parameter `noise`.  Failure of the random source is not modelled. -/
def noiseRunes (noise : Nat → Rune) (n : Nat) : Runes := (List.range n).map noise

/-- Effect of overwriting the array at address `a` on one slice. -/
def Sl.wiped (a : Nat) (noise : Nat → Rune) (s : Sl) : Sl :=
  if s.addr = a then { s with val := noiseRunes noise s.val.length } else s

/-- Effect of overwriting the array at address `a` on the keys of an instance. -/
def wipeKeys (a : Nat) (noise : Nat → Rune) (keys : List Key) : List Key :=
  keys.map (fun k => { k with id := k.id.wiped a noise })

/-- Effect of overwriting the array at address `a` on the messages of an instance. -/
def wipeMsgs (a : Nat) (noise : Nat → Rune) (msgs : List Msg) : List Msg :=
  msgs.map (fun m => { m with keyId := m.keyId.wiped a noise })

end K431
