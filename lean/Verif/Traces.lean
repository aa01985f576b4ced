import Verif.Cipher

/-!
# The arrays behind growing slices: what `Encipher` and `Decipher` leave in memory

`Cipher.lean` gives the coded text and the plaintext by value.  Here the arrays behind them are followed.  `append` writes into the array while there is room; else it
allocates a larger one, copies, and leaves the old array as it is (Go specification, "Appending to and copying slices").  How much larger is up to the implementation: a parameter.
-/

namespace K431

/-- A slice that grows: the array behind it, the length of the slice, and the arrays that it has outgrown. -/
structure Work where
  cells : Runes
  len : Nat
  old : List Runes
  deriving DecidableEq, Repr

/-- `make([]rune, 0, cap)` -/
def Work.make (cap : Nat) : Work := ⟨List.replicate cap 0, 0, []⟩

/-- `append(s, xs...)`; `grow c n` is the capacity of the array that replaces one of capacity `c` when `n` elements are needed, or `n` if that is less. -/
def Work.append (grow : Nat → Nat → Nat) (xs : Runes) (w : Work) : Work :=
  if w.len + xs.length ≤ w.cells.length then
    { w with cells := w.cells.take w.len ++ xs ++ w.cells.drop (w.len + xs.length), len := w.len + xs.length }
  else
    ⟨w.cells.take w.len ++ xs ++ List.replicate (grow w.cells.length (w.len + xs.length) - (w.len + xs.length)) 0, w.len + xs.length, w.old ++ [w.cells]⟩

/-- one `append` after the other, a rune each -/
def Work.appends (grow : Nat → Nat → Nat) (xs : Runes) (w : Work) : Work := xs.foldl (fun w x => w.append grow [x]) w

/-- Overwriting a slice and setting it to nil: `Wipe` (krypto431.go:173-217), the parts of `Message.Wipe` (334-389) and `chunk.Wipe` (392-436); `noise` are random runes, or zeroes if
the random source fails and the function falls back to them.  Only the elements of the slice are written. -/
def Work.wipe (noise : Nat → Rune) (w : Work) : Work :=
  { w with cells := (List.range w.len).map noise ++ w.cells.drop w.len, len := 0 }

/-- all arrays that the slice has used -/
def Work.arrays (w : Work) : List Runes := w.old ++ [w.cells]

/-! ## Encipher -/

/-- `newChunk`, krypto431.go:165-170: capacity `DefaultEncodedTextCapacity` (line 31). -/
def newChunkWork : Work := Work.make 700

/-- What `encodeCharacter` (cipher.go:265-312) appends to its output, letter by letter; before it panics, it may have toggled the case. -/
def encodeAppends (U : Unicode) (st : CState) (c : Rune) (enc : Runes) : Runes :=
  match encodeCharacter U st c enc with
  | .ok (_, enc') => enc'.drop enc.length
  | _ =>
    if (U.isUpper c && st.shift) || (U.isLower c && !st.shift) then
      match toggleCase st (some enc) with
      | .ok (_, some o) => o.drop enc.length
      | _ => []
    else []

/-- The memory of `changeKey` (cipher.go:230-243): all letters up to 'Y' one by one, then the key id at once.  `enc` and `enc'` are the coded text before and after. -/
def changeKeyWork (grow : Nat → Nat → Nat) (keyId enc enc' : Runes) (w : Work) : Work :=
  let d := enc'.drop enc.length
  (w.appends grow (d.take (d.length - keyId.length))).append grow keyId

/-- The coding loop with its memory, cipher.go:587-607 (see `encLoop`): the arrays of the chunks in `chunks` and of the current one. -/
def encLoopWork (grow : Nat → Nat → Nat) (U : Unicode) (groupSize : Nat) (recipients : List Runes) :
    Runes → LoopState → List Work → Work → (Outcome Unit × LoopState) × List Work × Work
  | [], s, ws, w => ((.ok (), s), ws, w)
  | c :: cs, s, ws, w =>
    let r := if keyExhausted groupSize s then nextChunk U groupSize recipients s else (.ok (), s)
    match r with
    | (.err e, s) => ((.err e, s), ws, w)
    | (.panic, s) => ((.panic, s), ws, w)
    | (.ok _, s1) =>
      let m : List Work × Work :=
        if keyExhausted groupSize s then
          match s1.keys[s1.cur.key]?, s1.chunks.getLast? with
          | some k, some ch => (ws ++ [changeKeyWork grow k.id.val s.cur.enc ch.enc w], newChunkWork)
          | _, _ => (ws, w)
        else (ws, w)
      let w' := m.2.appends grow (encodeAppends U s1.st c s1.cur.enc)
      match encodeCharacter U s1.st c s1.cur.enc with
      | .err e => ((.err e, s1), m.1, w')
      | .panic => ((.panic, s1), m.1, w')
      | .ok (st, enc) => encLoopWork grow U groupSize recipients cs { s1 with st := st, cur := { s1.cur with enc := enc } } m.1 w'

/-- The deferred function of `Encipher` as far as the arrays are concerned, cipher.go:575-586: `chunks[i].Wipe()` for all chunks and `chunk.Wipe()`.  If the current chunk is in `chunks` already, its array
is overwritten twice, which makes no difference here. -/
def wipeWorks (noise : Nat → Nat → Rune) (ws : List Work) : List Work := ws.zipIdx.map (fun p => p.1.wipe (noise p.2))

/-- `Encipher`, cipher.go:548-661, with the arrays of the coded text: the result as in `encipherT`, and the arrays of all chunks when the function has returned. -/
def encipherWork (grow : Nat → Nat → Nat) (U : Unicode) (noise : Nat → Rune) (noises : Nat → Nat → Rune) (freshId : Runes) (inst : Inst) (m : Msg) :
    (Outcome (List Chunk) × Inst × Msg) × List Work :=
  let m := withId freshId m
  match enrichWithKey U freshId inst m with
  | (.err e, inst, m) => ((.err e, inst, m), [])
  | (.panic, inst, m) => ((.panic, inst, m), [])
  | (.ok _, inst, m) =>
    let m := { m with cipherText := [] }
    match getKey U inst.keys m.keyId.val with
    | none => ((.err .keyNotFound, inst, m), [newChunkWork])
    | some i =>
      let s0 : LoopState := ⟨inst.keys, newState, [], ⟨[], i⟩⟩
      match encLoopWork grow U inst.groupSize m.recipients m.plainText s0 [] newChunkWork with
      | ((.err e, s), ws, w) => let r := release U noise inst m s []; ((.err e, r.1, r.2), wipeWorks noises (ws ++ [w]))
      | ((.panic, s), ws, w) => let r := release U noise inst m s []; ((.panic, r.1, r.2), wipeWorks noises (ws ++ [w]))
      | ((.ok _, s), ws, w) =>
        if inst.groupSize = 0 then
          let r := release U noise inst m s []; ((.panic, r.1, r.2), wipeWorks noises (ws ++ [w]))
        else
          let total := s.cur.enc.length + totalLength s.chunks
          let padded := (pad s.st (padCount inst.groupSize total) s.cur.enc).2
          let cur := { s.cur with enc := padded }
          let chunks := s.chunks ++ [cur]
          let w' := w.appends grow (padded.drop s.cur.enc.length)
          match cipherChunks s.keys chunks with
          | (.ok _, out) =>
            ((.ok chunks, { inst with keys := s.keys }, { m with cipherText := out }), ws ++ [w'])
          | (.err e, out) =>
            let r := release U noise inst m { s with chunks := chunks, cur := cur } out; ((.err e, r.1, r.2), wipeWorks noises (ws ++ [w']))
          | (.panic, out) =>
            let r := release U noise inst m { s with chunks := chunks, cur := cur } out; ((.panic, r.1, r.2), wipeWorks noises (ws ++ [w']))

/-! ## Decipher -/

/-- The loop of `Decipher` (cipher.go:698-728, see `decLoop`) with the arrays of `m.PlainText`; `decodeCharacter` appends a rune at a time (cipher.go:377). -/
def decLoopWork (grow : Nat → Nat → Nat) (U : Unicode) (groupSize : Nat) (keys : List Key) : Runes → DState → Work → (Outcome DState × Runes) × Work
  | [], d, w => ((.ok d, d.plain), w)
  | c :: cs, d, w =>
    match decStep U groupSize keys d c with
    | .ok d' => decLoopWork grow U groupSize keys cs d' (w.appends grow (d'.plain.drop d.plain.length))
    | .err e => ((.err e, d.plain), w)
    | .panic => ((.panic, d.plain), w)

/-- `Decipher`, cipher.go:668-731, with the arrays of the plaintext: `Wipe(&m.PlainText)` sets the slice to nil, so that it grows from nothing.  `none` if the function returns before that. -/
def decipherWork (grow : Nat → Nat → Nat) (U : Unicode) (freshId : Runes) (inst : Inst) (m : Msg) : (Outcome Unit × Inst × Msg) × Option Work :=
  let m := withId freshId m
  if m.keyId.val.length ≠ inst.groupSize then ((.err .noKey, inst, m), none)
  else if m.cipherText.length < inst.groupSize then ((.err .cipherTextTooShort, inst, m), none)
  else match getKey U inst.keys m.keyId.val with
    | none => ((.err .keyNotFound, inst, m), none)
    | some i =>
      match decLoopWork grow U inst.groupSize inst.keys m.cipherText ⟨i, 0, [], newState, [i], []⟩ (Work.make 0) with
      | ((.ok d, plain), w) =>
        ((.ok (), { inst with keys := d.stack.foldl (fun ks j => setUsed ks j true) inst.keys }, { m with plainText := plain }), some w)
      | ((.err e, plain), w) => ((.err e, inst, { m with plainText := plain }), some w)
      | ((.panic, plain), w) => ((.panic, inst, { m with plainText := plain }), some w)

end K431
