import Verif.Cipher

/-!
# Concurrent Enciphers

`Encipher` (cipher.go:548-661, with `EnrichWithKey`, cipher.go:490-542) as a state machine over the shared instance, for several
goroutines.  The program takes no lock: the mutex `mx` (krypto431.go:98) is allocated but never locked.

A step is a stretch of code with at most one access that matters to others: reading the keys (`FindKey`, `GetKey`, the final ciphering
loop), or setting a flag.  Real executions interleave more finely; every schedule of these steps is a real one.  The deferred release
(cipher.go:575-586) is one step.  Each goroutine has its own message.
-/

namespace K431

/-- Where a goroutine is in `Encipher`. -/
inductive EPhase where
  /-- not yet called -/
  | start
  /-- cipher.go:526: `FindKey` has returned key `i` -/
  | chosen (i : Nat)
  /-- cipher.go:556: `EnrichWithKey` has returned -/
  | enriched
  /-- cipher.go:587: in the coding loop; `checked`: the key change for the next character is done -/
  | coding (checked : Bool) (rest : Runes) (st : CState) (chunks : List Chunk) (cur : Chunk)
  /-- cipher.go:589: `FindKey` has returned key `j` -/
  | change (j : Nat) (rest : Runes) (st : CState) (chunks : List Chunk) (cur : Chunk)
  /-- returned nil; the chunks are kept for the specification -/
  | done (chunks : List Chunk)
  /-- returned an error or panicked -/
  | failed (o : Outcome Unit)
  deriving DecidableEq, Repr

/-- A goroutine: its message, the id its message gets if it has none, what the random source delivers when arrays are
overwritten, and where it is. -/
structure EThread where
  msg : Msg
  fresh : Runes
  noise : Nat → Rune
  ph : EPhase

/-- Failure in the coding loop or later: the deferred release, cipher.go:575-586. -/
def eFail (U : Unicode) (inst : Inst) (t : EThread) (o : Outcome Unit) (st : CState) (chunks : List Chunk) (cur : Chunk)
    (out : Runes) : Inst × EThread :=
  let r := release U t.noise inst t.msg ⟨inst.keys, st, chunks, cur⟩ out
  (r.1, { t with msg := r.2, ph := .failed o })

/-- One step of a goroutine; `none`: it has returned. -/
def eStep (U : Unicode) (inst : Inst) (t : EThread) : Option (Inst × EThread) :=
  match t.ph with
  | .start =>
    let m := withId t.fresh t.msg
    if m.plainText.length = 0 then some (inst, { t with msg := m, ph := .failed (.err .emptyPlainText) })
    else if m.keyId.val.length > 0 then
      if m.keyId.val.length ≠ inst.groupSize then some (inst, { t with msg := m, ph := .failed (.err .keyIdLength) })
      else match presetCheck m.keyId.val inst.keys with
        | .ok _ => some (inst, { t with msg := m, ph := .enriched })
        | o => some (inst, { t with msg := m, ph := .failed o })
    else if m.cipherText.length > 0 then
      if m.keyId.val.length ≠ inst.groupSize then some (inst, { t with msg := m, ph := .failed (.err .cipherTextWithoutKey) })
      else some (inst, { t with msg := m, ph := .enriched })
    else match findKey U inst.groupSize inst.keys m.recipients with
      | none => some (inst, { t with msg := m, ph := .failed (.err .noKeyFound) })
      | some i => some (inst, { t with msg := m, ph := .chosen i })
  | .chosen i =>
    match inst.keys[i]? with
    | none => some (inst, { t with ph := .failed .panic })
    | some k => some ({ inst with keys := setUsed inst.keys i true }, { t with msg := { t.msg with keyId := k.id }, ph := .enriched })
  | .enriched =>
    let m := { t.msg with cipherText := [] }
    match getKey U inst.keys m.keyId.val with
    | none => some (inst, { t with msg := m, ph := .failed (.err .keyNotFound) })
    | some i => some (inst, { t with msg := m, ph := .coding false m.plainText newState [] ⟨[], i⟩ })
  | .coding checked (c :: cs) st chunks cur =>
    if checked = false ∧ keyExhausted inst.groupSize ⟨inst.keys, st, chunks, cur⟩ = true then
      match findKey U inst.groupSize inst.keys t.msg.recipients with
      | none => some (eFail U inst t (.err .outOfKeys) st chunks cur [])
      | some j => some (inst, { t with ph := .change j (c :: cs) st chunks cur })
    else match encodeCharacter U st c cur.enc with
      | .err e => some (eFail U inst t (.err e) st chunks cur [])
      | .panic => some (eFail U inst t .panic st chunks cur [])
      | .ok (st, enc) => some (inst, { t with ph := .coding false cs st chunks { cur with enc := enc } })
  | .change j rest st chunks cur =>
    match inst.keys[j]? with
    | none => some (eFail U inst t .panic st chunks cur [])
    | some k =>
      match changeKey st k.id.val cur.enc with
      | .err e => some (eFail U inst t (.err e) st chunks cur [])
      | .panic => some (eFail U inst t .panic st chunks cur [])
      | .ok (_, enc) => some ({ inst with keys := setUsed inst.keys j true },
          { t with ph := .coding true rest newState (chunks ++ [{ cur with enc := enc }]) ⟨[], j⟩ })
  | .coding _ [] st chunks cur =>
    if inst.groupSize = 0 then some (eFail U inst t .panic st chunks cur [])
    else
      let total := cur.enc.length + totalLength chunks
      let cur := { cur with enc := (pad st (padCount inst.groupSize total) cur.enc).2 }
      let chunks := chunks ++ [cur]
      match cipherChunks inst.keys chunks with
      | (.ok _, out) => some (inst, { t with msg := { t.msg with cipherText := out }, ph := .done chunks })
      | (o, out) => some (eFail U inst t o st chunks cur out)
  | .done _ => none
  | .failed _ => none

/-- The instance and the goroutines using it. -/
structure EState where
  inst : Inst
  threads : List EThread

/-- Goroutine `i` takes a step. -/
inductive EStep (U : Unicode) (i : Nat) : EState → EState → Prop
  | step {s : EState} {t t' : EThread} {inst' : Inst} : s.threads[i]? = some t → eStep U s.inst t = some (inst', t') →
      EStep U i s ⟨inst', s.threads.set i t'⟩

/-- The goroutine has called `Encipher` and it has not returned. -/
def EThread.active (t : EThread) : Bool :=
  match t.ph with
  | .start => false
  | .done _ => false
  | .failed _ => false
  | _ => true

/-- one step of a goroutine nobody disturbs -/
def Alone (U : Unicode) (x y : Inst × EThread) : Prop := eStep U x.1 x.2 = some y

end K431
