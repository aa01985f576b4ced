import Verif.Krypto
import Verif.Keys

/-!
# Model of saving and loading (`persistence.go:322-478`)

`encoding/gob` is modelled by its documented rules: a field with its zero value is not sent, and decoding updates the receiver in place,
field by field and element by element, without clearing it first.  The stream cipher with gzip is a parameter (`Codec`) with stated laws.
-/

namespace K431

/-! ## gob -/

/-- a field on the wire: omitted if zero -/
def sent {α : Type} [DecidableEq α] (zero x : α) : Option α := if x = zero then none else some x

/-- `Key` on the wire: the exported fields (krypto431.go:118-125).  Times are sent unless they are the zero time, here 0. -/
structure WireKey where
  id : Option Runes
  runes : Option Runes
  keepers : Option (List Runes)
  created : Option Int
  expires : Option Int
  used : Option Bool
  compromised : Option Bool
  comment : Option Runes
  deriving DecidableEq, Repr

/-- `Message` on the wire (krypto431.go:143-151; `Binary` is never set). -/
structure WireMsg where
  id : Option Runes
  recipients : Option (List Runes)
  from_ : Option Runes
  dtg : Option Int
  keyId : Option Runes
  plainText : Option Runes
  cipherText : Option Runes
  radiogram : Option Runes
  deriving DecidableEq, Repr

/-- `Krypto431` on the wire: the exported fields (krypto431.go:105-111). -/
structure Wire where
  groupSize : Option Nat
  keyLength : Option Nat
  columns : Option Nat
  keyColumns : Option Nat
  keys : Option (List WireKey)
  messages : Option (List WireMsg)
  callSign : Option Runes
  deriving DecidableEq, Repr

/-- encoding a key -/
def gobKey (k : Key) : WireKey :=
  ⟨sent [] k.id.val, sent [] k.runes, sent [] k.names, sent 0 k.created, sent 0 k.expires, sent false k.used,
    sent false k.compromised, sent [] k.comment⟩

/-- encoding a message -/
def gobMsg (m : Msg) : WireMsg :=
  ⟨sent [] m.id, sent [] m.recipients, sent [] m.from_, sent 0 m.dtg, sent [] m.keyId.val, sent [] m.plainText,
    sent [] m.cipherText, sent [] m.radiogram⟩

/-- `gobEncoder.Encode(k)`, persistence.go:398 -/
def gobInst (i : Inst) : Wire :=
  ⟨sent 0 i.groupSize, sent 0 i.keyLength, sent 0 i.columns, sent 0 i.keyColumns, sent [] (i.keys.map gobKey),
    sent [] (i.messages.map gobMsg), sent [] i.callSign⟩

/-- Decoding a key into the memory of the key `old`.  Arrays get new addresses from `a` on (gob reuses an array of the receiver if it is large
enough; sharing among the arrays of the receiver is not modelled). -/
def mergeKey (a : Nat) (old : Key) (w : WireKey) : Key where
  id := match w.id with | none => old.id | some r => ⟨a, r⟩
  runes := w.runes.getD old.runes
  keepers := match w.keepers with | none => old.keepers | some l => allocSls (a + 1) l
  created := w.created.getD old.created
  expires := w.expires.getD old.expires
  used := w.used.getD old.used
  compromised := w.compromised.getD old.compromised
  comment := w.comment.getD old.comment

/-- Decoding a message into the memory of the message `old`. -/
def mergeMsg (a : Nat) (old : Msg) (w : WireMsg) : Msg where
  id := w.id.getD old.id
  recipients := w.recipients.getD old.recipients
  from_ := w.from_.getD old.from_
  dtg := w.dtg.getD old.dtg
  keyId := match w.keyId with | none => old.keyId | some r => ⟨a, r⟩
  plainText := w.plainText.getD old.plainText
  cipherText := w.cipherText.getD old.cipherText
  radiogram := w.radiogram.getD old.radiogram

/-- Decoding the elements of `Keys` into the cells of the receiver's array, the missing ones zero; also returns the next free address. -/
def mergeKeys : Nat → List Key → List WireKey → List Key × Nat
  | a, _, [] => ([], a)
  | a, cells, w :: ws =>
    let rest := mergeKeys (a + 1 + (w.keepers.getD []).length) cells.tail ws
    (mergeKey a (cells.headD Key.zero) w :: rest.1, rest.2)

/-- Decoding the elements of `Messages`. -/
def mergeMsgs : Nat → List Msg → List WireMsg → List Msg × Nat
  | a, _, [] => ([], a)
  | a, cells, w :: ws =>
    let rest := mergeMsgs (a + 1) cells.tail ws
    (mergeMsg a (cells.headD Msg.zero) w :: rest.1, rest.2)

/-- `gobDecoder.Decode(k)`, persistence.go:464.  A slice with enough capacity is decoded into in place, else a new zeroed array is made. -/
def gobDecode (w : Wire) (k : Krypto) : Krypto :=
  let i := k.inst
  let keys := match w.keys with
    | none => ((i.keys, i.nextAddr), k.spareKeys)
    | some ws =>
      let cells := i.keys ++ k.spareKeys
      if ws.length ≤ cells.length then (mergeKeys i.nextAddr cells ws, cells.drop ws.length)
      else (mergeKeys i.nextAddr [] ws, [])
  let msgs := match w.messages with
    | none => ((i.messages, keys.1.2), k.spareMsgs)
    | some ws =>
      let cells := i.messages ++ k.spareMsgs
      if ws.length ≤ cells.length then (mergeMsgs keys.1.2 cells ws, cells.drop ws.length)
      else (mergeMsgs keys.1.2 [] ws, [])
  { k with
    inst := { groupSize := w.groupSize.getD i.groupSize, keyLength := w.keyLength.getD i.keyLength
              columns := w.columns.getD i.columns, keyColumns := w.keyColumns.getD i.keyColumns
              keys := keys.1.1, messages := msgs.1.1, callSign := w.callSign.getD i.callSign, nextAddr := msgs.1.2 }
    spareKeys := keys.2, spareMsgs := msgs.2 }

/-! ## The encrypted file -/

/-- gob output compressed by gzip and encrypted by the stream cipher (persistence.go:386-398, 449-464).  `enc key nonce w`: the bytes of the
complete file; `early`: how many of them are written before `Encode` returns (the rest is written by the deferred `Close` calls);
`dec`: what `Decode` finds with this key in a file, `none` if any layer reports an error. -/
structure Codec where
  enc : List Nat → Nat → Wire → List Nat
  early : List Nat → Nat → Wire → Nat
  dec : List Nat → List Nat → Option Wire

/-- What is assumed of the packages `gob`, `gzip` and `encrypted-stream` (XSalsa20-Poly1305): the right key opens a complete file; another key opens
neither a file nor a part of it; the beginning of a file either can not be opened or already holds everything (only the trailer is missing);
an empty file can not be opened; what has been written when `Encode` returns can not be opened (gob sends one value in one block, and gzip keeps its last
bytes back until `Close`). -/
structure Codec.Lawful (C : Codec) : Prop where
  right : ∀ key n w, key.length = 32 → C.dec key (C.enc key n w) = some w
  wrong : ∀ key key' n w i, key.length = 32 → key'.length = 32 → key ≠ key' → C.dec key' ((C.enc key n w).take i) = none
  part : ∀ key n w i, key.length = 32 → C.dec key ((C.enc key n w).take i) = none ∨ C.dec key ((C.enc key n w).take i) = some w
  empty : ∀ key, C.dec key [] = none
  late : ∀ key n w, key.length = 32 → C.early key n w < (C.enc key n w).length ∧ ∀ key', C.dec key' ((C.enc key n w).take (C.early key n w)) = none

/-- The file system: contents by path, `none` if there is no such file. -/
def Disk := List Nat → Option (List Nat)

/-- the file system with one file changed -/
def Disk.set (d : Disk) (path c : List Nat) : Disk := fun p => if p = path then some c else d p

/-- What saving and loading meet: the home directory (`none`: unknown), `filepath.Join`, whether standard input is a terminal, the answer to the prompt (`none`: it failed), the
passwords entered, errors of `os.Stat` (other than "does not exist") and `os.OpenFile`/`os.Open`, the nonce, the number of bytes that can be written
before writing fails (`none`: all), and the random source. -/
structure World where
  home : Option (List Nat)
  join : List Nat → List Nat → List Nat
  terminal : Bool
  confirm : Option Bool
  inputs : List (Option (List Nat))
  statFails : Bool
  openFails : Bool
  nonce : Nat
  room : Option Nat
  noise : Option (Nat → Nat)

/-- `strings.HasPrefix(k.persistence, "~/")` and its resolution, persistence.go:331-337 and 413-419; `none` is an error. -/
def resolvePath (W : World) (p : List Nat) : Option (List Nat) :=
  if p.take 2 = [126, 47] then W.home.map (fun h => W.join h (p.drop 2)) else some p

/-- A run of `Save`: its outcome, the instance afterwards, and what the file `k.persistence` contained one after the other, from its
truncation on (nothing if the file was not touched). -/
structure SaveRun where
  outcome : Outcome Unit
  k : Krypto
  contents : List (List Nat)

/-- Opening and writing the file, persistence.go:380-402.  The conversion `(*[32]byte)(*k.persistenceKey)` panics if the slice is
shorter than 32 bytes, when the file has been truncated already.  Errors of writes in the deferred `Close` calls are lost. -/
def saveWrite (C : Codec) (W : World) (key : List Nat) (k : Krypto) : SaveRun :=
  if W.openFails then ⟨.err .other, k, []⟩
  else if key.length < 32 then ⟨.panic, k, [[]]⟩
  else
    let c := C.enc (key.take 32) W.nonce (gobInst k.inst)
    match W.room with
    | none => ⟨.ok (), k, (List.range (c.length + 1)).map c.take⟩
    | some n =>
      if c.length ≤ n then ⟨.ok (), k, (List.range (c.length + 1)).map c.take⟩
      else ⟨if n < C.early (key.take 32) W.nonce (gobInst k.inst) then .err .other else .ok (), k, (List.range (n + 1)).map c.take⟩

/-- Getting the key and writing, persistence.go:365-402; `none`: still waiting for a password. -/
def saveKey (C : Codec) (E : PwEnv) (W : World) (k : Krypto) : Option SaveRun :=
  match k.pfk with
  | some key => some (saveWrite C W key k)
  | none =>
    if k.interactive && W.terminal then
      match askAndConfirm E.strong W.inputs with
      | none => none
      | some a =>
        match a.result with
        | .ok pw =>
          match derivePFK E false W.noise (some ⟨pw, false⟩) k with
          | (.ok (), k, _) =>
            match k.pfk with
            | some key => some (saveWrite C W key k)
            | none => some ⟨.panic, k, []⟩
          | (.err e, k, _) => some ⟨.err e, k, []⟩
          | (.panic, k, _) => some ⟨.panic, k, []⟩
        | .err e => some ⟨.err e, k, []⟩
        | .panic => some ⟨.panic, k, []⟩
    else some ⟨.err .other, k, []⟩

/-- `Save`, persistence.go:325-403. -/
def save (C : Codec) (E : PwEnv) (W : World) (disk : Disk) (k : Krypto) : Option SaveRun :=
  if k.persistence.length = 0 then some ⟨.err .other, k, []⟩
  else
    match resolvePath W k.persistence with
    | none => some ⟨.err .other, k, []⟩
    | some path =>
      let k := { k with persistence := path }
      if W.statFails then some ⟨.err .other, k, []⟩
      else
        match disk path with
        | none => saveKey C E W k
        | some _ =>
          if k.overwrite then saveKey C E W k
          else if k.interactive && W.terminal then
            match W.confirm with
            | none => some ⟨.err .other, k, []⟩
            | some false => some ⟨.ok (), k, []⟩
            | some true => saveKey C E W k
          else some ⟨.err .other, k, []⟩

/-- the file system after a run of `Save` -/
def SaveRun.disk (r : SaveRun) (d : Disk) : Disk :=
  match r.contents.getLast? with
  | none => d
  | some c => d.set r.k.persistence c

/-- the states of the file system in which the program may die during a run of `Save` -/
def SaveRun.crashes (r : SaveRun) (d : Disk) : List Disk := d :: r.contents.map (fun c => d.set r.k.persistence c)

/-- Reading the file, persistence.go:444-477. -/
def loadRead (C : Codec) (W : World) (disk : Disk) (key : List Nat) (k : Krypto) : Outcome Unit × Krypto :=
  if W.openFails then (.err .other, k)
  else if key.length < 32 then (.panic, k)
  else
    match disk k.persistence with
    | none => (.err .other, k)
    | some c =>
      match C.dec (key.take 32) c with
      | none => (.err .other, k)
      | some w => (.ok (), { gobDecode w k with overwrite := true })

/-- `Load`, persistence.go:407-478; `none`: still waiting for a password. -/
def load (C : Codec) (E : PwEnv) (W : World) (disk : Disk) (k : Krypto) : Option (Outcome Unit × Krypto) :=
  if k.persistence.length = 0 then some (.err .other, k)
  else
    match resolvePath W k.persistence with
    | none => some (.err .other, k)
    | some path =>
      let k := { k with persistence := path }
      if W.statFails then some (.err .other, k)
      else
        match disk path with
        | none => some (.err .other, k)
        | some _ =>
          match k.pfk with
          | some key => some (loadRead C W disk key k)
          | none =>
            if k.interactive && W.terminal then
              match askForPassword 0 W.inputs with
              | none => none
              | some (none, _) => some (.err .other, k)
              | some (some pw, _) =>
                match derivePFK E false W.noise (some ⟨pw, false⟩) k with
                | (.ok (), k, _) =>
                  match k.pfk with
                  | some key => some (loadRead C W disk key k)
                  | none => some (.panic, k)
                | (.err e, k, _) => some (.err e, k)
                | (.panic, k, _) => some (.panic, k)
            else some (.err .other, k)

/-! ## Export and wiping, by value -/

/-- `ExportKeys`, persistence.go:488-517.  `ByteCopy` turns a nil pointer into an empty slice (functions.go:430-437).  The keys are copied as
structures: their arrays are shared with the original (addresses are kept). -/
def exportKeys (filter : Key → Bool) (opts : List (Krypto → Krypto)) (k : Krypto) : Krypto :=
  let n : Krypto :=
    { persistence := [], pfk := some (k.pfk.getD []), salt := some (k.salt.getD [])
      overwrite := false, interactive := k.interactive, overwriteKeys := false
      inst := { k.inst with keys := [], messages := [] }
      spareKeys := List.replicate k.inst.keys.length Key.zero, spareMsgs := [] }
  let n := opts.foldl (fun k o => o k) n
  { n with inst := { n.inst with keys := n.inst.keys ++ k.inst.keys.filter filter }
           spareKeys := n.spareKeys.drop (k.inst.keys.filter filter).length }

/-- `WipeBytes(p)` as seen through the pointer, krypto431.go:220-252: a nil slice afterwards, or no change if the random source fails (`none`). -/
def wipeThrough (noise : Option (Nat → Nat)) (b : List Nat) : List Nat := if noise.isNone then b else []

/-- `Wipe`, krypto431.go:669-682, as seen through the instance itself: no keys, no messages, and pointers to nil slices.  (What happens to the
memory: `Heap.lean`.) -/
def wipeInstance (noise : Option (Nat → Nat)) (k : Krypto) : Krypto :=
  { k with pfk := k.pfk.map (wipeThrough noise), salt := k.salt.map (wipeThrough noise)
           inst := { k.inst with keys := [], messages := [] }, spareKeys := [], spareMsgs := [] }

/-! ## Importing from a file -/

/-- The options of `ImportKeys`; `pfkOwn` is `WithPFK(k.GetPFK())` and `saltOwn` is `WithSalt(k.GetSalt())` of the importing instance `k`. -/
inductive Opt where
  | pfk (key : Option (List Nat))
  | pfkOwn
  | pfkString (s : List Nat)
  | salt (salt : Option (List Nat))
  | saltOwn
  | saltString (s : List Nat)
  | persistence (file : List Nat)
  | interactive (b : Bool)
  | overwrite (b : Bool)
  | overwriteKeys (b : Bool)
  | callSign (cs : Runes)
  | groupSize (n : Nat)
  | keyLength (n : Nat)
  | columns (n : Nat)
  | keyColumns (n : Nat)

/-- an instance that may share the pointers to key and salt with the importing instance -/
structure Incoming where
  k : Krypto
  sharesPFK : Bool
  sharesSalt : Bool

/-- An option applied to the incoming instance, krypto431.go:477-591; `own` is the importing instance. -/
def Opt.apply (U : Unicode) (own : Krypto) (n : Incoming) : Opt → Incoming
  | .pfk key => { n with k := withPFK key n.k, sharesPFK := false }
  | .pfkOwn => { n with k := withPFK own.pfk n.k, sharesPFK := (withPFK own.pfk n.k).pfk.isSome }
  | .pfkString s => { n with k := withPFKString s n.k, sharesPFK := false }
  | .salt b => { n with k := withSalt b n.k, sharesSalt := false }
  | .saltOwn => { n with k := withSalt own.salt n.k, sharesSalt := (withSalt own.salt n.k).salt.isSome }
  | .saltString s => { n with k := withSaltString s n.k, sharesSalt := false }
  | .persistence f => { n with k := withPersistence f n.k }
  | .interactive b => { n with k := withInteractive b n.k }
  | .overwrite b => { n with k := withOverwrite b n.k }
  | .overwriteKeys b => { n with k := withOverwriteKeys b n.k }
  | .callSign cs => { n with k := withCallSign U cs n.k }
  | .groupSize m => { n with k := withGroupSize m n.k }
  | .keyLength m => { n with k := withKeyLength m n.k }
  | .columns m => { n with k := withColumns m n.k }
  | .keyColumns m => { n with k := withKeyColumns m n.k }

/-- `incoming := New(opts...)`, persistence.go:540. -/
def newIncoming (U : Unicode) (own : Krypto) (opts : List Opt) : Incoming :=
  opts.foldl (Opt.apply U own) ⟨newBase, false, false⟩

/-- `ImportKeys`, persistence.go:538-612, complete: loading the file, importing, and the deferred `incoming.Wipe()`, which also wipes the importing instance's
key and salt if the pointers are shared.  `none`: still waiting for a password. -/
def importFrom (C : Codec) (E : PwEnv) (W : World) (U : Unicode) (noise : Nat → Noise) (answer : Key → Option Bool) (filter : Key → Bool)
    (opts : List Opt) (disk : Disk) (own : Krypto) : Option (Outcome Unit × Nat × Krypto) :=
  let n := newIncoming U own opts
  match load C E W disk n.k with
  | none => none
  | some (.err e, _) => some (.err e, 0, own)
  | some (.panic, _) => some (.panic, 0, own)
  | some (.ok (), k) =>
    let r := importKeys U noise ⟨own.overwriteKeys, own.interactive && W.terminal, answer⟩ filter (.ok (k.inst.keys, k.inst.callSign)) own.inst
    some (r.1, r.2.1, { own with
      inst := r.2.2
      pfk := if n.sharesPFK then own.pfk.map (wipeThrough W.noise) else own.pfk
      salt := if n.sharesSalt then own.salt.map (wipeThrough W.noise) else own.salt })

end K431
