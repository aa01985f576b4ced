import Verif.Keys
import Verif.Heap

/-!
# Where keys and messages live: the arrays behind `Keys` and `Messages`, pointers into them, and the `instance` field

The other model files give `Keys` and `Messages` as lists.  Here every `Key` and `Message` struct has an address, so that a pointer returned by
`GetKey`, `FindKey`, `NewKey` or `NewTextMessage` and the non-exported field `instance` (krypto431.go:126, 152) can be talked about.  What the
slices inside a struct hold is given by value (`Heap.lean` has their arrays); in particular `Wipe` is only seen in the struct it is called for.
-/

namespace K431.Place

open K431.Mem

/-- A slice header: where the array begins, length, capacity. -/
structure Hdr where
  base : Nat
  len : Nat
  cap : Nat
deriving DecidableEq

/-- A `Key` or `Message` struct: what it holds, and its field `instance` (krypto431.go:126, 152), the address of a `Krypto431` struct. -/
structure Cell (α : Type) where
  val : α
  owner : Nat

/-- All structs of one type in memory; addresses from `next` on are free. -/
structure Bank (α : Type) where
  cells : Nat → Cell α
  next : Nat

/-- the struct at address `a` replaced -/
def Bank.put {α : Type} (b : Bank α) (a : Nat) (c : Cell α) : Bank α :=
  { b with cells := fun j => if j = a then c else b.cells j }

/-- `append(s, x)`: in place if there is room, else into a new array with capacity for `room` more (the runtime chooses how many). -/
def Bank.append {α : Type} (b : Bank α) (h : Hdr) (x : Cell α) (room : Nat) : Bank α × Hdr :=
  if h.len < h.cap then (b.put (h.base + h.len) x, { h with len := h.len + 1 })
  else
    ({ cells := fun j =>
        if j = b.next + h.len then x
        else if b.next ≤ j ∧ j < b.next + h.len then b.cells (h.base + (j - b.next))
        else b.cells j
       next := b.next + (h.len + 1 + room) },
     ⟨b.next, h.len + 1, h.len + 1 + room⟩)

/-- `s[i].Wipe(); s[i] = s[len(s)-1]; s = s[:len(s)-1]`, keys.go:90-92 and messages.go:329-331; `junk` is what wiping leaves in the struct. -/
def Bank.remove {α : Type} (b : Bank α) (h : Hdr) (i : Nat) (junk : α) : Bank α × Hdr :=
  let b := b.put (h.base + i) { b.cells (h.base + i) with val := junk }
  (b.put (h.base + i) (b.cells (h.base + (h.len - 1))), { h with len := h.len - 1 })

/-- A struct that is not an element of an array: a local variable whose address is returned. -/
def Bank.alloc {α : Type} (b : Bank α) (x : Cell α) : Bank α × Nat :=
  ({ b.put b.next x with next := b.next + 1 }, b.next)

/-- `gob` filling a slice and the loops of persistence.go:469-474 setting `instance`: the array is used again if it is long enough. -/
def Bank.fill {α : Type} (b : Bank α) (h : Hdr) (p : Nat) (vs : List α) : Bank α × Hdr :=
  if vs.length ≤ h.cap then
    ({ b with cells := fun j => if h.base ≤ j then (match vs[j - h.base]? with | some v => ⟨v, p⟩ | none => b.cells j) else b.cells j },
     { h with len := vs.length })
  else
    ({ cells := fun j => if b.next ≤ j then (match vs[j - b.next]? with | some v => ⟨v, p⟩ | none => b.cells j) else b.cells j
       next := b.next + vs.length },
     ⟨b.next, vs.length, vs.length⟩)

/-- what a slice holds -/
def Bank.read {α : Type} (b : Bank α) (h : Hdr) : List (Cell α) := (List.range h.len).map (fun i => b.cells (h.base + i))

/-- The settings of a `Krypto431` struct that its keys and messages consult through `instance`: keys.go:180, 191, 199; messages.go:367, 375, 395-403. -/
structure Settings where
  callSign : Runes
  groupSize : Nat
  columns : Nat
  keyColumns : Nat
deriving DecidableEq

/-- A `Krypto431` struct, krypto431.go:97-112, as far as needed here. -/
structure Station where
  set : Settings
  keys : Hdr
  msgs : Hdr

/-- The memory: the `Krypto431` structs (those below `next` exist), all keys, all messages. -/
structure World where
  stations : Nat → Station
  next : Nat
  keys : Bank KeyVal
  msgs : Bank MsgVal

/-- the struct at address `p` replaced -/
def World.put (w : World) (p : Nat) (s : Station) : World :=
  { w with stations := fun q => if q = p then s else w.stations q }

/-- the keys of the station at address `p`, in order -/
def World.keysOf (w : World) (p : Nat) : List (Cell KeyVal) := w.keys.read (w.stations p).keys
/-- the messages of the station at address `p`, in order -/
def World.msgsOf (w : World) (p : Nat) : List (Cell MsgVal) := w.msgs.read (w.stations p).msgs

/-- `GetKey`, cipher.go:460-468: the address of the first key with the id. -/
def World.getKey (U : Unicode) (w : World) (p : Nat) (id : Runes) : Option Nat :=
  (firstIdx (fun c : Cell KeyVal => decide (lookupName U id = goStr c.val.id)) 0 (w.keysOf p)).map ((w.stations p).keys.base + ·)

/-- `make([]T, 0, n)` -/
def Bank.make {α : Type} (b : Bank α) (n : Nat) : Bank α × Hdr := ({ b with next := b.next + n }, ⟨b.next, 0, n⟩)

/-- `New`, krypto431.go:439-467, stored in a variable: room for 50000 keys and 10000 messages (krypto431.go:451-452). -/
def World.new (w : World) (set : Settings) : World × Nat :=
  let k := w.keys.make 50000
  let m := w.msgs.make 10000
  ({ stations := fun q => if q = w.next then ⟨set, k.2, m.2⟩ else w.stations q, next := w.next + 1, keys := k.1, msgs := m.1 }, w.next)

/-- `k.Keys = append(k.Keys, key)` with `key.instance = k`: keys.go:77, persistence.go:601-608. -/
def World.addKey (w : World) (p : Nat) (v : KeyVal) (room : Nat) : World :=
  let r := w.keys.append (w.stations p).keys ⟨v, p⟩ room
  { w.put p { w.stations p with keys := r.2 } with keys := r.1 }

/-- `NewKey`, keys.go:46-79, with the key `v` generated: the variable `key` is appended (copied) and its address returned. -/
def World.newKey (w : World) (p : Nat) (v : KeyVal) (room : Nat) : World × Nat :=
  let a := w.keys.alloc ⟨v, p⟩
  (({ w with keys := a.1 } : World).addKey p v room, a.2)

/-- `k.Messages = append(k.Messages, *message)`, messages.go:161, with `message.instance = k` (messages.go:213); the variable the pointer `message`
refers to is another struct, and its address is returned. -/
def World.newMessage (w : World) (p : Nat) (v : MsgVal) (room : Nat) : World × Nat :=
  let a := w.msgs.alloc ⟨v, p⟩
  let r := a.1.append (w.stations p).msgs ⟨v, p⟩ room
  ({ w.put p { w.stations p with msgs := r.2 } with msgs := r.1 }, a.2)

/-- `DeleteKey` with one id, keys.go:88-96. -/
def World.deleteKey (U : Unicode) (w : World) (p : Nat) (id : Runes) (junk : KeyVal) : World :=
  match firstIdx (fun c : Cell KeyVal => equalRunesFold U (some c.val.id) (some id)) 0 (w.keysOf p) with
  | none => w
  | some i =>
    let r := w.keys.remove (w.stations p).keys i junk
    { w.put p { w.stations p with keys := r.2 } with keys := r.1 }

/-- `DeleteMessage` with one id, messages.go:327-335. -/
def World.deleteMessage (w : World) (p : Nat) (id : Runes) (junk : MsgVal) : World :=
  match firstIdx (fun c : Cell MsgVal => equalRunes (some c.val.id) (some id)) 0 (w.msgsOf p) with
  | none => w
  | some i =>
    let r := w.msgs.remove (w.stations p).msgs i junk
    { w.put p { w.stations p with msgs := r.2 } with msgs := r.1 }

/-- Assigning to fields of a key through a pointer (`p.Used = true`, `p.Comment = …`); also what `MarkKeyUsed` (cipher.go:472-481) does through
the address it finds.  The field `instance` is not changed. -/
def World.writeKey (w : World) (a : Nat) (f : KeyVal → KeyVal) : World :=
  { w with keys := w.keys.put a { w.keys.cells a with val := f (w.keys.cells a).val } }

/-- the same for a message (`Encipher`, `Decipher`, `AddRecipient`, …) -/
def World.writeMsg (w : World) (a : Nat) (f : MsgVal → MsgVal) : World :=
  { w with msgs := w.msgs.put a { w.msgs.cells a with val := f (w.msgs.cells a).val } }

/-- `SetInstance` of a key, keys.go:174-177. -/
def World.setInstance (w : World) (a q : Nat) : World :=
  { w with keys := w.keys.put a { w.keys.cells a with owner := q } }

/-- `SetInstance` of a message, messages.go:388-390. -/
def World.setMsgInstance (w : World) (a q : Nat) : World :=
  { w with msgs := w.msgs.put a { w.msgs.cells a with owner := q } }

/-- `SetCallSign` (krypto431.go:640-647) and assignments to the exported fields. -/
def World.configure (w : World) (p : Nat) (f : Settings → Settings) : World :=
  w.put p { w.stations p with set := f (w.stations p).set }

/-- `Load` that succeeds, persistence.go:455-474, with the keys and messages as decoded. -/
def World.load (w : World) (p : Nat) (set : Settings) (ks : List KeyVal) (ms : List MsgVal) : World :=
  let k := w.keys.fill (w.stations p).keys p ks
  let m := w.msgs.fill (w.stations p).msgs p ms
  { w.put p ⟨set, k.2, m.2⟩ with keys := k.1, msgs := m.1 }

/-- `Wipe`, krypto431.go:669-682: both slices become nil.  (The structs wiped are no longer reached.) -/
def World.wipe (w : World) (p : Nat) : World :=
  w.put p { w.stations p with keys := ⟨0, 0, 0⟩, msgs := ⟨0, 0, 0⟩ }

/-- Loop of `ExportKeys`, persistence.go:509-515: `newKey.instance = &n`; the capacity given to `make` suffices. -/
def exportLoop (filter : KeyVal → Bool) (d : Nat) (b : Bank KeyVal) (h : Hdr) : List (Cell KeyVal) → Bank KeyVal × Hdr
  | [] => (b, h)
  | c :: cs =>
    if filter c.val then
      let r := b.append h ⟨c.val, d⟩ 0
      exportLoop filter d r.1 r.2 cs
    else exportLoop filter d b h cs

/-- `ExportKeys`, persistence.go:488-517, stored in a variable.  `n` is a variable of the function, at address `d`: every exported key gets its
address.  The function returns the value of `n`, which the caller stores elsewhere, at address `r`.  `opts` are the options. -/
def World.export (w : World) (p : Nat) (filter : KeyVal → Bool) (opts : Settings → Settings) : World × Nat :=
  let d := w.next
  let k := w.keys.make (w.stations p).keys.len
  let m := w.msgs.make 0
  let e := exportLoop filter d k.1 k.2 (w.keysOf p)
  let n : Station := ⟨opts (w.stations p).set, e.2, m.2⟩
  ({ stations := fun q => if q = d then n else if q = d + 1 then n else w.stations q, next := w.next + 2, keys := e.1, msgs := m.1 }, d + 1)

/-- One thing a program does with the package.  Importing keys is a sequence of `deleteKey` and `addKey`; generating keys is a sequence of `newKey`. -/
inductive Step where
  | new (set : Settings)
  | newKey (p : Nat) (v : KeyVal) (room : Nat)
  | addKey (p : Nat) (v : KeyVal) (room : Nat)
  | newMessage (p : Nat) (v : MsgVal) (room : Nat)
  | deleteKey (p : Nat) (id : Runes) (junk : KeyVal)
  | deleteMessage (p : Nat) (id : Runes) (junk : MsgVal)
  | writeKey (a : Nat) (f : KeyVal → KeyVal)
  | writeMsg (a : Nat) (f : MsgVal → MsgVal)
  | setInstance (a q : Nat)
  | setMsgInstance (a q : Nat)
  | configure (p : Nat) (f : Settings → Settings)
  | load (p : Nat) (set : Settings) (ks : List KeyVal) (ms : List MsgVal)
  | wipe (p : Nat)
  | export (p : Nat) (filter : KeyVal → Bool) (opts : Settings → Settings)

/-- what the step does to the memory -/
def World.step (U : Unicode) (w : World) : Step → World
  | .new set => (w.new set).1
  | .newKey p v room => (w.newKey p v room).1
  | .addKey p v room => w.addKey p v room
  | .newMessage p v room => (w.newMessage p v room).1
  | .deleteKey p id junk => w.deleteKey U p id junk
  | .deleteMessage p id junk => w.deleteMessage p id junk
  | .writeKey a f => w.writeKey a f
  | .writeMsg a f => w.writeMsg a f
  | .setInstance a q => w.setInstance a q
  | .setMsgInstance a q => w.setMsgInstance a q
  | .configure p f => w.configure p f
  | .load p set ks ms => w.load p set ks ms
  | .wipe p => w.wipe p
  | .export p filter opts => (w.export p filter opts).1

/-- the steps one after the other -/
def World.run (U : Unicode) (w : World) (ss : List Step) : World := ss.foldl (World.step U) w

/-- before the program has done anything -/
def World.empty : World :=
  ⟨fun _ => ⟨⟨[], 0, 0, 0⟩, ⟨0, 0, 0⟩, ⟨0, 0, 0⟩⟩, 0, ⟨fun _ => ⟨⟨[], [], [], 0, 0, false, false, []⟩, 0⟩, 0⟩,
    ⟨fun _ => ⟨⟨[], [], [], 0, [], [], [], []⟩, 0⟩, 0⟩⟩

end K431.Place
