import Verif.Store
import Verif.Codec
import Verif.Diana

/-!
# Model of `EnrichWithKey`, `Encipher`, `Decipher`, `TryDecipherPlainText` (cipher.go:483-796)

The message is handed in separately from the instance; a message stored in `inst.messages` is handled
by taking it out and putting it back.  `freshId` is the value `NewUniqueMessageId` would return
(modelled in `Messages.lean`); it is only used if the message has no id.
-/

namespace K431

/-- `if len(m.Id) == 0 { m.Id = m.instance.NewUniqueMessageId() }`, cipher.go:491-493, 549-551,
669-671, 742-744. -/
def withId (freshId : Runes) (m : Msg) : Msg :=
  if m.id.length = 0 then { m with id := freshId } else m

/-- Loop over the keys in `EnrichWithKey` for a message with a given key id, cipher.go:502-512. -/
def presetCheck (keyId : Runes) : List Key → Outcome Unit
  | [] => .err .keyIdUnknown
  | k :: ks =>
    if equalRunes (some k.id.val) (some keyId) then
      if k.used then .err .keyIdUsed
      else if k.compromised then .err .keyIdCompromised
      else .ok ()
    else presetCheck keyId ks

/-- `EnrichWithKey`, cipher.go:490-542. -/
def enrichWithKey (U : Unicode) (freshId : Runes) (inst : Inst) (m : Msg) : Outcome Unit × Inst × Msg :=
  let m := withId freshId m
  if m.plainText.length = 0 then (.err .emptyPlainText, inst, m)
  else if m.keyId.val.length > 0 then
    if m.keyId.val.length ≠ inst.groupSize then (.err .keyIdLength, inst, m)
    else (presetCheck m.keyId.val inst.keys, inst, m)
  else if m.cipherText.length > 0 then
    if m.keyId.val.length ≠ inst.groupSize then (.err .cipherTextWithoutKey, inst, m)
    else (.ok (), inst, m)
  else
    match findKey U inst.groupSize inst.keys m.recipients with
    | none => (.err .noKeyFound, inst, m)
    | some i =>
      match inst.keys[i]? with
      | none => (.panic, inst, m)
      | some k => (.ok (), { inst with keys := setUsed inst.keys i true }, { m with keyId := k.id })

/-- `chunk`, krypto431.go:159-162; the key pointer is an index. -/
structure Chunk where
  enc : Runes
  key : Nat
  deriving DecidableEq, Repr

/-- Local state of the coding loop of `Encipher`. -/
structure LoopState where
  keys : List Key
  st : CState
  chunks : List Chunk
  cur : Chunk
  deriving DecidableEq, Repr

/-- `chunk.key.KeyLength()` (keys.go:184-186) through the key pointer. -/
def keyLenAt (keys : List Key) (i : Nat) : Nat :=
  match keys[i]? with
  | some k => k.runes.length
  | none => 0

/-- `state.charCounter >= chunk.key.KeyLength()-GroupSize-ControlCharactersNeededToChangeKey`,
cipher.go:588. -/
def keyExhausted (groupSize : Nat) (s : LoopState) : Bool :=
  decide ((s.st.charCounter : Int) ≥
    (keyLenAt s.keys s.cur.key : Int) - (groupSize : Int) - controlCharactersNeededToChangeKey)

/-- Key change inside the loop, cipher.go:589-601. -/
def nextChunk (U : Unicode) (groupSize : Nat) (recipients : List Runes) (s : LoopState) :
    Outcome Unit × LoopState :=
  match findKey U groupSize s.keys recipients with
  | none => (.err .outOfKeys, s)
  | some j =>
    match s.keys[j]? with
    | none => (.panic, s)
    | some k =>
      match changeKey s.st k.id.val s.cur.enc with
      | .err e => (.err e, s)
      | .panic => (.panic, s)
      | .ok (_, enc) =>
        (.ok (), { keys := setUsed s.keys j true, st := newState,
                   chunks := s.chunks ++ [{ s.cur with enc := enc }], cur := ⟨[], j⟩ })

/-- The coding loop, cipher.go:587-607. -/
def encLoop (U : Unicode) (groupSize : Nat) (recipients : List Runes) :
    Runes → LoopState → Outcome Unit × LoopState
  | [], s => (.ok (), s)
  | c :: cs, s =>
    let r := if keyExhausted groupSize s then nextChunk U groupSize recipients s else (.ok (), s)
    match r with
    | (.err e, s) => (.err e, s)
    | (.panic, s) => (.panic, s)
    | (.ok _, s) =>
      match encodeCharacter U s.st c s.cur.enc with
      | .err e => (.err e, s)
      | .panic => (.panic, s)
      | .ok (st, enc) => encLoop U groupSize recipients cs { s with st := st, cur := { s.cur with enc := enc } }

/-- Inner cipher loop over one chunk, cipher.go:637-644; result: outcome and letters written. -/
def cipherChunk : Runes → Runes → Outcome Unit × Runes
  | _, [] => (.ok (), [])
  | [], _ :: _ => (.panic, [])     -- index out of range; excluded by the length check before
  | k :: ks, e :: es =>
    match trigraph k e with
    | .err x => (.err x, [])
    | .panic => (.panic, [])
    | .ok z =>
      let r := cipherChunk ks es
      (r.1, z :: r.2)

/-- Cipher loop over the chunks, cipher.go:624-645. -/
def cipherChunks (keys : List Key) : List Chunk → Outcome Unit × Runes
  | [] => (.ok (), [])
  | ch :: chs =>
    match keys[ch.key]? with
    | none => (.err .nilPointer, [])
    | some k =>
      if ch.enc.length > k.runes.length then (.err .keyTooShort, [])
      else
        match cipherChunk k.runes ch.enc with
        | (.ok _, out) =>
          let r := cipherChunks keys chs
          (r.1, out ++ r.2)
        | (o, out) => (o, out)

/-- number of letters of all chunks, cipher.go:611-614 -/
def totalLength (chunks : List Chunk) : Nat := (chunks.map (fun c => c.enc.length)).foldr (· + ·) 0

/-- number of pad letters, cipher.go:615 -/
def padCount (groupSize total : Nat) : Nat := (groupSize - total % groupSize) % groupSize

/-- The deferred release, cipher.go:575-586: un-mark the message key (looked up by id), overwrite the
array of `m.KeyId` -- which the key shares -- and un-mark all chunk keys. -/
def release (U : Unicode) (noise : Nat → Rune) (inst : Inst) (m : Msg) (s : LoopState) (cipherText : Runes) :
    Inst × Msg :=
  let keys1 := (markKeyUsed U s.keys m.keyId.val false).2
  let keys2 := if m.keyId.val.length = 0 then keys1 else wipeKeys m.keyId.addr noise keys1
  let msgs2 := if m.keyId.val.length = 0 then inst.messages
    else wipeMsgs m.keyId.addr noise inst.messages
  let keys3 := setUsed keys2 s.cur.key false
  let keys4 := s.chunks.foldl (fun ks c => setUsed ks c.key false) keys3
  ({ inst with keys := keys4, messages := msgs2 }, { m with keyId := Sl.nil, cipherText := cipherText })

/-- `Encipher`, cipher.go:548-661.  Result: outcome (with the chunks on success, for the
specifications; Go keeps them local), instance and message after the call, including the effects of the deferred function on failure. -/
def encipherT (U : Unicode) (noise : Nat → Rune) (freshId : Runes) (inst : Inst) (m : Msg) :
    Outcome (List Chunk) × Inst × Msg :=
  let m := withId freshId m
  match enrichWithKey U freshId inst m with
  | (.err e, inst, m) => (.err e, inst, m)
  | (.panic, inst, m) => (.panic, inst, m)
  | (.ok _, inst, m) =>
    let m := { m with cipherText := [] }
    match getKey U inst.keys m.keyId.val with
    | none => (.err .keyNotFound, inst, m)
    | some i =>
      let s0 : LoopState := ⟨inst.keys, newState, [], ⟨[], i⟩⟩
      match encLoop U inst.groupSize m.recipients m.plainText s0 with
      | (.err e, s) => let r := release U noise inst m s []; (.err e, r.1, r.2)
      | (.panic, s) => let r := release U noise inst m s []; (.panic, r.1, r.2)
      | (.ok _, s) =>
        if inst.groupSize = 0 then   -- integer divide by zero, cipher.go:615
          let r := release U noise inst m s []; (.panic, r.1, r.2)
        else
          let total := s.cur.enc.length + totalLength s.chunks
          let padded := (pad s.st (padCount inst.groupSize total) s.cur.enc).2
          let cur := { s.cur with enc := padded }
          let chunks := s.chunks ++ [cur]
          match cipherChunks s.keys chunks with
          | (.ok _, out) =>
            (.ok chunks, { inst with keys := s.keys }, { m with cipherText := out })
          | (.err e, out) =>
            let r := release U noise inst m { s with chunks := chunks, cur := cur } out; (.err e, r.1, r.2)
          | (.panic, out) =>
            let r := release U noise inst m { s with chunks := chunks, cur := cur } out; (.panic, r.1, r.2)

/-- `Encipher` as the caller sees it. -/
def encipher (U : Unicode) (noise : Nat → Rune) (freshId : Runes) (inst : Inst) (m : Msg) :
    Outcome Unit × Inst × Msg :=
  match encipherT U noise freshId inst m with
  | (.ok _, i, m) => (.ok (), i, m)
  | (.err e, i, m) => (.err e, i, m)
  | (.panic, i, m) => (.panic, i, m)

/-- Local state of `Decipher`: current key, `keyIndexCounter`, `nextKey`, coder state, `keyStack`,
and `m.PlainText` so far. -/
structure DState where
  key : Nat
  ki : Nat
  nextKey : Runes
  st : CState
  stack : List Nat
  plain : Runes
  deriving DecidableEq, Repr

/-- Body of the loop of `Decipher`, cipher.go:698-728. -/
def decStep (U : Unicode) (groupSize : Nat) (keys : List Key) (d : DState) (c : Rune) : Outcome DState :=
  match keys[d.key]? with
  | none => .panic
  | some k =>
    if d.ki ≥ k.runes.length then .err .keyTooShort
    else match k.runes[d.ki]? with
      | none => .panic
      | some kr =>
        match trigraph kr c with
        | .err e => .err e
        | .panic => .panic
        | .ok e =>
          match decodeCharacter U d.st e d.plain with
          | .err x => .err x
          | .panic => .panic
          | .ok (st, plain) =>
            if st.keyChange then
              let nextKey := d.nextKey ++ [e]
              if nextKey.length ≥ groupSize then
                match getKey U keys nextKey with
                | none => .err .keyNotFound
                | some j => .ok ⟨j, 0, [], newState, d.stack ++ [j], plain⟩
              else .ok ⟨d.key, d.ki + 1, nextKey, st, d.stack, plain⟩
            else .ok ⟨d.key, d.ki + 1, d.nextKey, st, d.stack, plain⟩

/-- The loop of `Decipher`; the second component is `m.PlainText` when the loop ends, also after an
error (decodeCharacter appends nothing when it fails). -/
def decLoop (U : Unicode) (groupSize : Nat) (keys : List Key) : Runes → DState → Outcome DState × Runes
  | [], d => (.ok d, d.plain)
  | c :: cs, d =>
    match decStep U groupSize keys d c with
    | .ok d' => decLoop U groupSize keys cs d'
    | .err e => (.err e, d.plain)
    | .panic => (.panic, d.plain)

/-- `Decipher`, cipher.go:668-731. -/
def decipher (U : Unicode) (freshId : Runes) (inst : Inst) (m : Msg) : Outcome Unit × Inst × Msg :=
  let m := withId freshId m
  if m.keyId.val.length ≠ inst.groupSize then (.err .noKey, inst, m)
  else if m.cipherText.length < inst.groupSize then (.err .cipherTextTooShort, inst, m)
  else match getKey U inst.keys m.keyId.val with
    | none => (.err .keyNotFound, inst, m)
    | some i =>
      match decLoop U inst.groupSize inst.keys m.cipherText ⟨i, 0, [], newState, [i], []⟩ with
      | (.ok d, plain) =>
        (.ok (), { inst with keys := d.stack.foldl (fun ks j => setUsed ks j true) inst.keys },
          { m with plainText := plain })
      | (.err e, plain) => (.err e, inst, { m with plainText := plain })
      | (.panic, plain) => (.panic, inst, { m with plainText := plain })

/-- The filter loop of `TryDecipherPlainText`, cipher.go:750-760: letters upper-cased, blanks and
'=' skipped, anything else is refused (`none`). -/
def filterText (U : Unicode) : Runes → Option Runes
  | [] => some []
  | c :: cs =>
    if U.isSpace c || c == 61 then filterText U cs
    else if 65 ≤ U.toUpper c ∧ U.toUpper c ≤ 90 then
      match filterText U cs with
      | some r => some (U.toUpper c :: r)
      | none => none
    else none

/-- `TryDecipherPlainText`, cipher.go:741-796.  `RuneCopy` allocates: the new `KeyId` array gets the
next free address. -/
def tryDecipher (U : Unicode) (freshId : Runes) (dryrun : Bool) (inst : Inst) (m : Msg) :
    Outcome Unit × Inst × Msg :=
  let m := withId freshId m
  if m.keyId.val.length > 0 then (.err .notCipherText, inst, m)
  else match filterText U m.plainText with
    | none => (.err .notCipherText, inst, m)
    | some filtered =>
      if filtered.length < inst.groupSize * 2 then (.err .notCipherText, inst, m)
      else match getKey U inst.keys (filtered.take inst.groupSize) with
        | none => (.err .notCipherText, inst, m)
        | some i =>
          if dryrun then (.ok (), inst, m)
          else match inst.keys[i]? with
            | none => (.panic, inst, m)
            | some k =>
              let m1 := { m with keyId := ⟨inst.nextAddr, k.id.val⟩,
                                 cipherText := filtered.drop inst.groupSize }
              let inst1 := { inst with nextAddr := inst.nextAddr + 1 }
              match decipher U freshId inst1 m1 with
              | (.ok _, inst2, m2) => (.ok (), inst2, m2)
              | (.err _, inst2, m2) =>
                (.err .notCipherText, inst2,
                  { m2 with keyId := Sl.nil, plainText := m.plainText, cipherText := m.cipherText })
              | (.panic, inst2, m2) =>
                (.panic, inst2,
                  { m2 with keyId := Sl.nil, plainText := m.plainText, cipherText := m.cipherText })

end K431
