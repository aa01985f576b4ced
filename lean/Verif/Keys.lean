import Verif.Store
import Verif.Crand

/-!
# Model of `keys.go`: generating and deleting keys, keepers; and of importing keys (`persistence.go:538-612`)
-/

namespace K431

/-- Loop of `ContainsKeyId`, keys.go:25-29. -/
def containsKeyIdLoop (U : Unicode) (id : Runes) : List Key → Bool
  | [] => false
  | k :: ks => if equalRunesFold U (some k.id.val) (some id) then true else containsKeyIdLoop U id ks

/-- `ContainsKeyId`, keys.go:21-31. -/
def containsKeyId (U : Unicode) (keys : List Key) (id : Option Runes) : Bool :=
  match id with
  | none => false
  | some id => containsKeyIdLoop U id keys

/-- `ContainsKeeper`, keys.go:33-41 (and `ContainsRecipient`, messages.go:267-275). -/
def containsNames (U : Unicode) (names : List Runes) (args : List Runes) : Bool :=
  if args.length = 0 then names.length = 0
  else if allNeedlesInHaystack U (some args) (some names) true then true else false

/-- Search loop with `break`: index of the first element satisfying `p` (keys.go:88-96, 157-163;
messages.go:305-312, 327-335). -/
def firstIdx {α : Type} (p : α → Bool) : Nat → List α → Option Nat
  | _, [] => none
  | i, x :: xs => if p x then some i else firstIdx p (i + 1) xs

/-- `s[i] = s[len(s)-1]; s = s[:len(s)-1]` (keys.go:91-92, 159-160; messages.go:308-309, 330-331). -/
def swapRemove {α : Type} (l : List α) (i : Nat) : List α :=
  match l.getLast? with
  | none => l
  | some x => (l.set i x).dropLast

/-- Body of the loop of `RemoveKeeper`, keys.go:157-163. -/
def removeFirst {α : Type} (p : α → Bool) (l : List α) : List α :=
  match firstIdx p 0 l with
  | none => l
  | some i => swapRemove l i

/-- `AddKeeper`, keys.go:143-150; the slices given are stored as they are. -/
def addKeeper (U : Unicode) (keepers : List Sl) : List Sl → List Sl
  | [] => keepers
  | a :: as => addKeeper U (if containsNames U (keepers.map Sl.val) [a.val] then keepers else keepers ++ [a]) as

/-- `RemoveKeeper`, keys.go:154-166. -/
def removeKeeper (U : Unicode) (keepers : List Sl) : List Runes → List Sl
  | [] => keepers
  | a :: as => removeKeeper U (removeFirst (fun s => equalRunesFold U (some a) (some s.val)) keepers) as

/-- `make`/conversion of several rune slices: each gets its own array. -/
def allocSls (base : Nat) : List Runes → List Sl
  | [] => []
  | r :: rs => ⟨base, r⟩ :: allocSls (base + 1) rs

/-- Loop drawing an id until it is new, keys.go:60-73.  `fuel` bounds the number of attempts;
`newKey` gives one more than the tape has words. -/
def newIdLoop (U : Unicode) (keys : List Key) (groupSize : Nat) : Nat → Tape → Option (Runes × Tape)
  | 0, _ => none
  | fuel + 1, t =>
    match intns 26 groupSize t with
    | none => none
    | some (xs, t) =>
      if containsKeyId U keys (some (xs.map letterOf)) then newIdLoop U keys groupSize fuel t
      else some (xs.map letterOf, t)

/-- Number of letters of a new key, keys.go:49: `int(math.Ceil(float64(KeyLength)/float64(GroupSize)))*GroupSize`.
The floating-point quotient is exact enough below 2^53. -/
def newKeyLength (keyLength groupSize : Nat) : Nat := (keyLength + groupSize - 1) / groupSize * groupSize

/-- `NewKey`, keys.go:46-79.  `now` is the time; returns the new key, the instance and the rest of the tape;
`none`: has not returned when the tape is used up. -/
def newKey (U : Unicode) (now expire : Int) (keepers : List Runes) (inst : Inst) (t : Tape) :
    Option (Key × Inst × Tape) :=
  let names := vettedKeepers U keepers
  let kept := removeKeeper U (allocSls (inst.nextAddr + 1) names) [inst.callSign]
  match newIdLoop U inst.keys inst.groupSize (t.length + 1) t with
  | none => none
  | some (id, t) =>
    match intns 26 (newKeyLength inst.keyLength inst.groupSize) t with
    | none => none
    | some (xs, t) =>
      let key : Key := ⟨⟨inst.nextAddr, id⟩, xs.map letterOf, kept, now, expire, false, false, []⟩
      some (key, { inst with keys := inst.keys ++ [key], nextAddr := inst.nextAddr + 1 + names.length }, t)

/-- Loop of `GenerateKeys`, keys.go:136-138; `now i` is the time of the `i`-th call. -/
def generateLoop (U : Unicode) (now : Nat → Int) (expire : Int) (keepers : List Runes) :
    Nat → Inst → Tape → Option (Inst × Tape)
  | 0, inst, t => some (inst, t)
  | n + 1, inst, t =>
    match newKey U (now n) expire keepers inst t with
    | none => none
    | some (_, inst, t) => generateLoop U now expire keepers n inst t

/-- `GenerateKeys`, keys.go:124-140.  `expire`: `none` is a nil pointer, `some r` the result of `dtg.Parse`.
A negative `n` generates nothing. -/
def generateKeys (U : Unicode) (now : Nat → Int) (start : Int) (n : Int) (expire : Option (Outcome Int))
    (keepers : List Runes) (inst : Inst) (t : Tape) : Option (Outcome Unit × Inst × Tape) :=
  match (match expire with | none => .ok (start + 365 * 24 * 3600 * 1000000000) | some r => r : Outcome Int) with
  | .ok e => (generateLoop U now e keepers n.toNat inst t).map (fun p => (.ok (), p.1, p.2))
  | .err x => some (.err x, inst, t)
  | .panic => some (.panic, inst, t)

/-- What the random source writes into wiped arrays: for each array its contents. -/
structure Noise where
  ids : Nat → Nat → Rune
  calls : Nat → Nat → Rune

/-- Effect on a call-sign slice of overwriting the arrays `as`. -/
def Sl.wipedIn (as : List Nat) (noise : Nat → Nat → Rune) (s : Sl) : Sl :=
  if s.addr ∈ as then ⟨s.addr, noiseRunes (noise s.addr) s.val.length⟩ else s

/-- `Key.Wipe` (`RandomWipe`, krypto431.go:283-305): its effect on the arrays, seen by all keys of the store.
Key letters and comment are not shared.  Nothing is written to empty slices. -/
def wipeKey (noise : Noise) (k : Key) (inst : Inst) : Inst :=
  let as := (k.keepers.filter (fun s => s.val ≠ [])).map Sl.addr
  let ids := if k.id.val ≠ [] then [k.id.addr] else []
  { inst with
    keys := inst.keys.map (fun x =>
      { x with id := x.id.wipedIn ids noise.ids, keepers := x.keepers.map (Sl.wipedIn as noise.calls) })
    messages := inst.messages.map (fun m => { m with keyId := m.keyId.wipedIn ids noise.ids }) }

/-- Body of the loop of `DeleteKey`, keys.go:88-96; returns how many were deleted (0 or 1). -/
def deleteKeyOnce (U : Unicode) (noise : Noise) (inst : Inst) (id : Runes) : Nat × Inst :=
  match firstIdx (fun k => equalRunesFold U (some k.id.val) (some id)) 0 inst.keys with
  | none => (0, inst)
  | some i =>
    match inst.keys[i]? with
    | none => (0, inst)
    | some k =>
      let inst := wipeKey noise k inst
      (1, { inst with keys := swapRemove inst.keys i })

/-- `DeleteKey`, keys.go:83-100; it never returns an error.  `noise i` is used for the `i`-th id. -/
def deleteKey (U : Unicode) (noise : Nat → Noise) (inst : Inst) : List Runes → Nat × Inst
  | [] => (0, inst)
  | id :: ids =>
    let r := deleteKeyOnce U (noise 0) inst id
    let r' := deleteKey U (fun i => noise (i + 1)) r.2 ids
    (r.1 + r'.1, r'.2)

/-- `DeleteKeyByString`, keys.go:104-106. -/
def deleteKeyByString (U : Unicode) (noise : Nat → Noise) (inst : Inst) (args : List Runes) : Nat × Inst :=
  deleteKey U noise inst (vettedKeepers U args)

/-- `strings.Cut(s, " ")`, first result. -/
def cutBlank (s : Runes) : Runes := s.takeWhile (fun c => c != 32)

/-- `DeleteKeysBySummaryString`, keys.go:108-119. -/
def deleteKeysBySummary (U : Unicode) (noise : Nat → Nat → Noise) (inst : Inst) : List Runes → Nat × Inst
  | [] => (0, inst)
  | s :: ss =>
    let r := deleteKeyByString U (noise 0) inst [cutBlank s]
    let r' := deleteKeysBySummary U (fun i => noise (i + 1)) r.2 ss
    (r.1 + r'.1, r'.2)

/-- What decides in `ImportKeys` whether an existing key is replaced (persistence.go:553-569): the option, whether
the program can ask, and the answers of the user (`none`: the prompt failed). -/
structure ImportOpts where
  overwrite : Bool
  canAsk : Bool
  answer : Key → Option Bool

/-- The copy made of an incoming key, persistence.go:576-606.  `call` is the exporter's call-sign slice:
`AddKeeper` stores it without copying. -/
def importedKey (U : Unicode) (inst : Inst) (call : Sl) (k : Key) : Key :=
  { k with
    id := ⟨inst.nextAddr, k.id.val⟩
    keepers := addKeeper U (removeKeeper U (allocSls (inst.nextAddr + 1) k.names) [inst.callSign]) [call] }

/-- Loop of `ImportKeys`, persistence.go:546-610; returns the outcome, the number of keys imported and the
instance. -/
def importLoop (U : Unicode) (noise : Nat → Noise) (o : ImportOpts) (filter : Key → Bool) (call : Sl) :
    List Key → Nat → Inst → Outcome Unit × Nat × Inst
  | [], n, inst => (.ok (), n, inst)
  | k :: ks, n, inst =>
    let next := importLoop U (fun i => noise (i + 1)) o filter call ks
    let add (inst : Inst) := next (n + 1) { inst with
      keys := inst.keys ++ [importedKey U inst call k], nextAddr := inst.nextAddr + 1 + k.keepers.length }
    if k.id.val.length ≠ inst.groupSize then next n inst
    else if filter k then
      if containsKeyId U inst.keys (some k.id.val) then
        if !o.overwrite && o.canAsk then
          match o.answer k with
          | none => (.err .other, n, inst)
          | some false => next n inst
          | some true => add (deleteKey U (fun _ => noise 0) inst [k.id.val]).2
        else if !o.overwrite then next n inst
        else add (deleteKey U (fun _ => noise 0) inst [k.id.val]).2
      else add inst
    else next n inst

/-- `ImportKeys`, persistence.go:538-612.  `loaded` is the result of `incoming.Load()`: keys and call-sign of the
file.  `incoming.Wipe()` does not wipe the call-sign (krypto431.go:669-682). -/
def importKeys (U : Unicode) (noise : Nat → Noise) (o : ImportOpts) (filter : Key → Bool)
    (loaded : Outcome (List Key × Runes)) (inst : Inst) : Outcome Unit × Nat × Inst :=
  match loaded with
  | .ok (keys, call) =>
    importLoop U noise o filter ⟨inst.nextAddr, call⟩ keys 0 { inst with nextAddr := inst.nextAddr + 1 }
  | .err e => (.err e, 0, inst)
  | .panic => (.panic, 0, inst)

end K431
