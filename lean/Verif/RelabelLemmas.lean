import Verif.SpecRelabel
import Verif.Cipher

/-! # Helper lemmas: what Encipher and Decipher do not look at -/

namespace K431
open Spec

/-- `g` changes only what is not looked at -/
structure Inert (g : Key → Key) : Prop where
  id : ∀ k, (g k).id = k.id
  runes : ∀ k, (g k).runes = k.runes
  keepers : ∀ k, (g k).keepers = k.keepers
  used : ∀ k, (g k).used = k.used
  compromised : ∀ k, (g k).compromised = k.compromised
  setUsed : ∀ k b, g { k with used := b } = { g k with used := b }
  setId : ∀ k s, g { k with id := s } = { g k with id := s }

theorem redate_inert (e c : Int → Int) (t : Runes → Runes) : Inert (redate e c t) :=
  ⟨fun _ => rfl, fun _ => rfl, fun _ => rfl, fun _ => rfl, fun _ => rfl, fun _ _ => rfl, fun _ _ => rfl⟩

variable {g : Key → Key}

theorem findKey_inert (hg : Inert g) (U : Unicode) (gs : Nat) (rs : List Runes) (keys : List Key) :
    findKey U gs (keys.map g) rs = findKey U gs keys rs := by
  unfold findKey
  generalize 0 = n
  induction keys generalizing n with
  | nil => rfl
  | cons k ks ih =>
    have hn : (g k).names = k.names := by rw [Key.names, hg.keepers, Key.names]
    simp only [List.map_cons, findKeyFrom, hg.used, hg.id, hg.keepers, hn, ih]

theorem getKeyFrom_inert (hg : Inert g) (name : Runes) (keys : List Key) (n : Nat) :
    getKeyFrom name n (keys.map g) = getKeyFrom name n keys := by
  induction keys generalizing n with
  | nil => rfl
  | cons k ks ih => simp only [List.map_cons, getKeyFrom, hg.id, ih]

theorem getKey_inert (hg : Inert g) (U : Unicode) (keys : List Key) (id : Runes) : getKey U (keys.map g) id = getKey U keys id :=
  getKeyFrom_inert hg _ _ _

theorem setUsed_inert (hg : Inert g) (keys : List Key) (i : Nat) (b : Bool) : K431.setUsed (keys.map g) i b = (K431.setUsed keys i b).map g := by
  unfold K431.setUsed
  apply List.ext_getElem?
  intro j
  simp only [List.getElem?_modify, List.getElem?_map]
  cases keys[j]? with
  | none => rfl
  | some k =>
    by_cases h : i = j
    · simp only [h, if_true, Option.map_some]
      exact congrArg some (hg.setUsed k b).symm
    · simp [h]

theorem markKeyUsed_inert (hg : Inert g) (U : Unicode) (keys : List Key) (id : Runes) (b : Bool) :
    (markKeyUsed U (keys.map g) id b).2 = (markKeyUsed U keys id b).2.map g := by
  unfold markKeyUsed
  rw [getKey_inert hg]
  cases getKey U keys id with
  | none => rfl
  | some i => exact setUsed_inert hg _ _ _

theorem wipeKeys_inert (hg : Inert g) (a : Nat) (noise : Nat → Rune) (keys : List Key) : wipeKeys a noise (keys.map g) = (wipeKeys a noise keys).map g := by
  unfold wipeKeys
  simp only [List.map_map]
  apply List.map_congr_left
  intro k _
  show { g k with id := (g k).id.wiped a noise } = g { k with id := k.id.wiped a noise }
  rw [hg.id]
  exact (hg.setId k _).symm

theorem foldl_setUsed_inert (hg : Inert g) {α : Type} (b : Bool) (f : α → Nat) (l : List α) (keys : List Key) :
    l.foldl (fun ks c => K431.setUsed ks (f c) b) (keys.map g) = (l.foldl (fun ks c => K431.setUsed ks (f c) b) keys).map g := by
  induction l generalizing keys with
  | nil => rfl
  | cons c cs ih => simp only [List.foldl_cons, setUsed_inert hg, ih]

theorem presetCheck_inert (hg : Inert g) (id : Runes) (keys : List Key) : presetCheck id (keys.map g) = presetCheck id keys := by
  induction keys with
  | nil => rfl
  | cons k ks ih => simp only [List.map_cons, presetCheck, hg.id, hg.used, hg.compromised, ih]

/-- the loop state with changed keys -/
def LoopState.under (g : Key → Key) (s : LoopState) : LoopState := { s with keys := s.keys.map g }

/-- the store with changed keys -/
def Inst.under (g : Key → Key) (i : Inst) : Inst := { i with keys := i.keys.map g }

theorem keyLenAt_inert (hg : Inert g) (keys : List Key) (i : Nat) : keyLenAt (keys.map g) i = keyLenAt keys i := by
  unfold keyLenAt
  rw [List.getElem?_map]
  cases keys[i]? with
  | none => rfl
  | some k => simp [hg.runes]

theorem nextChunk_inert (hg : Inert g) (U : Unicode) (gs : Nat) (rs : List Runes) (s : LoopState) :
    nextChunk U gs rs (s.under g) = ((nextChunk U gs rs s).1, (nextChunk U gs rs s).2.under g) := by
  unfold nextChunk
  simp only [LoopState.under, findKey_inert hg]
  cases findKey U gs s.keys rs with
  | none => rfl
  | some j =>
    dsimp only
    rw [List.getElem?_map]
    cases s.keys[j]? with
    | none => rfl
    | some k =>
      simp only [Option.map_some, hg.id]
      cases changeKey s.st k.id.val s.cur.enc with
      | err e => rfl
      | panic => rfl
      | ok p => simp [setUsed_inert hg]

theorem encLoop_inert (hg : Inert g) (U : Unicode) (gs : Nat) (rs : List Runes) (text : Runes) (s : LoopState) :
    encLoop U gs rs text (s.under g) = ((encLoop U gs rs text s).1, (encLoop U gs rs text s).2.under g) := by
  induction text generalizing s with
  | nil => rfl
  | cons c cs ih =>
    have hx : keyExhausted gs (s.under g) = keyExhausted gs s := by simp [keyExhausted, LoopState.under, keyLenAt_inert hg]
    have hr : (if keyExhausted gs (s.under g) then nextChunk U gs rs (s.under g) else (.ok (), s.under g)) =
        ((if keyExhausted gs s then nextChunk U gs rs s else (.ok (), s)).1, (if keyExhausted gs s then nextChunk U gs rs s else (.ok (), s)).2.under g) := by
      rw [hx, nextChunk_inert hg]
      split <;> rfl
    unfold encLoop
    dsimp only
    rw [hr]
    generalize (if keyExhausted gs s then nextChunk U gs rs s else (.ok (), s)) = r
    obtain ⟨o, s1⟩ := r
    cases o with
    | err e => rfl
    | panic => rfl
    | ok u =>
      dsimp only
      have e1 : (s1.under g).st = s1.st := rfl
      have e2 : (s1.under g).cur = s1.cur := rfl
      rw [e1, e2]
      cases encodeCharacter U s1.st c s1.cur.enc with
      | err e => rfl
      | panic => rfl
      | ok p => exact ih { s1 with st := p.1, cur := { s1.cur with enc := p.2 } }

theorem cipherChunks_inert (hg : Inert g) (keys : List Key) (chunks : List Chunk) : cipherChunks (keys.map g) chunks = cipherChunks keys chunks := by
  induction chunks with
  | nil => rfl
  | cons ch chs ih =>
    unfold cipherChunks
    rw [List.getElem?_map]
    cases keys[ch.key]? with
    | none => rfl
    | some k => simp only [Option.map_some, hg.runes, ih]

theorem release_inert (hg : Inert g) (U : Unicode) (noise : Nat → Rune) (inst : Inst) (m : Msg) (s : LoopState) (ct : Runes) :
    release U noise (inst.under g) m (s.under g) ct = ((release U noise inst m s ct).1.under g, (release U noise inst m s ct).2) := by
  unfold release
  simp only [LoopState.under, Inst.under, markKeyUsed_inert hg]
  by_cases h : m.keyId.val.length = 0
  · simp only [h, if_true, setUsed_inert hg, foldl_setUsed_inert hg]
  · simp only [h, if_false, wipeKeys_inert hg, setUsed_inert hg, foldl_setUsed_inert hg]

theorem release_inert' (hg : Inert g) (U : Unicode) (noise : Nat → Rune) (inst : Inst) (m : Msg) (keys : List Key) (st : CState) (chunks : List Chunk) (cur : Chunk) (ct : Runes) :
    release U noise (inst.under g) m ⟨keys.map g, st, chunks, cur⟩ ct = ((release U noise inst m ⟨keys, st, chunks, cur⟩ ct).1.under g, (release U noise inst m ⟨keys, st, chunks, cur⟩ ct).2) :=
  release_inert hg U noise inst m ⟨keys, st, chunks, cur⟩ ct

theorem enrichWithKey_inert (hg : Inert g) (U : Unicode) (f : Runes) (inst : Inst) (m : Msg) :
    enrichWithKey U f (inst.under g) m = ((enrichWithKey U f inst m).1, (enrichWithKey U f inst m).2.1.under g, (enrichWithKey U f inst m).2.2) := by
  unfold enrichWithKey
  simp only [Inst.under, presetCheck_inert hg, findKey_inert hg]
  generalize withId f m = m
  by_cases h1 : m.plainText.length = 0
  · simp [h1]
  · simp only [h1, if_false]
    by_cases h2 : m.keyId.val.length > 0
    · simp only [h2, if_true]
      by_cases h3 : m.keyId.val.length ≠ inst.groupSize
      · simp [h3]
      · simp [h3]
    · simp only [h2, if_false]
      by_cases h3 : m.cipherText.length > 0
      · simp only [h3, if_true]
        by_cases h4 : m.keyId.val.length ≠ inst.groupSize
        · simp [h4]
        · simp [h4]
      · simp only [h3, if_false]
        cases findKey U inst.groupSize inst.keys m.recipients with
        | none => rfl
        | some i =>
          dsimp only
          rw [List.getElem?_map]
          cases inst.keys[i]? with
          | none => rfl
          | some k => simp [setUsed_inert hg, hg.id]

theorem encipherT_inert (hg : Inert g) (U : Unicode) (noise : Nat → Rune) (f : Runes) (inst : Inst) (m : Msg) :
    encipherT U noise f (inst.under g) m = ((encipherT U noise f inst m).1, (encipherT U noise f inst m).2.1.under g, (encipherT U noise f inst m).2.2) := by
  unfold encipherT
  dsimp only
  generalize withId f m = m
  rw [enrichWithKey_inert hg]
  generalize enrichWithKey U f inst m = r
  obtain ⟨o, inst1, m1⟩ := r
  cases o with
  | err e => rfl
  | panic => rfl
  | ok u =>
    dsimp only
    have hk : getKey U (inst1.under g).keys m1.keyId.val = getKey U inst1.keys m1.keyId.val := getKey_inert hg _ _ _
    rw [hk]
    cases getKey U inst1.keys m1.keyId.val with
    | none => rfl
    | some i =>
      dsimp only
      have hl : encLoop U (inst1.under g).groupSize m1.recipients m1.plainText ⟨(inst1.under g).keys, newState, [], ⟨[], i⟩⟩ =
          ((encLoop U inst1.groupSize m1.recipients m1.plainText ⟨inst1.keys, newState, [], ⟨[], i⟩⟩).1,
            (encLoop U inst1.groupSize m1.recipients m1.plainText ⟨inst1.keys, newState, [], ⟨[], i⟩⟩).2.under g) :=
        encLoop_inert hg U inst1.groupSize m1.recipients m1.plainText ⟨inst1.keys, newState, [], ⟨[], i⟩⟩
      rw [hl]
      generalize encLoop U inst1.groupSize m1.recipients m1.plainText ⟨inst1.keys, newState, [], ⟨[], i⟩⟩ = r
      obtain ⟨o, s⟩ := r
      cases o with
      | err e => simp only [release_inert hg]
      | panic => simp only [release_inert hg]
      | ok u =>
        dsimp only
        have hgs : (inst1.under g).groupSize = inst1.groupSize := rfl
        rw [hgs]
        by_cases h0 : inst1.groupSize = 0
        · simp only [h0, if_true, release_inert hg]
        · simp only [h0, if_false]
          have e1 : (s.under g).cur = s.cur := rfl
          have e2 : (s.under g).chunks = s.chunks := rfl
          have e3 : (s.under g).st = s.st := rfl
          have e4 : (s.under g).keys = s.keys.map g := rfl
          rw [e1, e2, e3, e4, cipherChunks_inert hg]
          generalize cipherChunks s.keys _ = r
          obtain ⟨o, out⟩ := r
          cases o with
          | ok u => rfl
          | err e => simp only [release_inert' hg]
          | panic => simp only [release_inert' hg]

theorem decStep_inert (hg : Inert g) (U : Unicode) (gs : Nat) (keys : List Key) (d : DState) (c : Rune) :
    decStep U gs (keys.map g) d c = decStep U gs keys d c := by
  unfold decStep
  rw [List.getElem?_map]
  cases keys[d.key]? with
  | none => rfl
  | some k => simp only [Option.map_some, hg.runes, getKey_inert hg]

theorem decLoop_inert (hg : Inert g) (U : Unicode) (gs : Nat) (keys : List Key) (text : Runes) (d : DState) :
    decLoop U gs (keys.map g) text d = decLoop U gs keys text d := by
  induction text generalizing d with
  | nil => rfl
  | cons c cs ih => simp only [decLoop, decStep_inert hg, ih]

theorem decipher_inert (hg : Inert g) (U : Unicode) (f : Runes) (inst : Inst) (m : Msg) :
    decipher U f (inst.under g) m = ((decipher U f inst m).1, (decipher U f inst m).2.1.under g, (decipher U f inst m).2.2) := by
  unfold decipher
  simp only [Inst.under, getKey_inert hg, decLoop_inert hg]
  generalize withId f m = m
  by_cases h1 : m.keyId.val.length ≠ inst.groupSize
  · simp [h1]
  · simp only [h1, if_false]
    by_cases h2 : m.cipherText.length < inst.groupSize
    · simp [h2]
    · simp only [h2, if_false]
      cases getKey U inst.keys m.keyId.val with
      | none => rfl
      | some i =>
        dsimp only
        generalize decLoop U inst.groupSize inst.keys m.cipherText _ = r
        obtain ⟨o, plain⟩ := r
        cases o with
        | ok d => simp [foldl_setUsed_inert hg true (fun j : Nat => j)]
        | err e => rfl
        | panic => rfl

theorem tryDecipher_inert (hg : Inert g) (U : Unicode) (f : Runes) (dry : Bool) (inst : Inst) (m : Msg) :
    tryDecipher U f dry (inst.under g) m = ((tryDecipher U f dry inst m).1, (tryDecipher U f dry inst m).2.1.under g, (tryDecipher U f dry inst m).2.2) := by
  unfold tryDecipher
  have e1 : (inst.under g).groupSize = inst.groupSize := rfl
  have e2 : (inst.under g).keys = inst.keys.map g := rfl
  have e3 : (inst.under g).nextAddr = inst.nextAddr := rfl
  simp only [e1, e2, e3, getKey_inert hg]
  generalize withId f m = m
  by_cases h1 : m.keyId.val.length > 0
  · simp [h1]
  · simp only [h1, if_false]
    cases filterText U m.plainText with
    | none => rfl
    | some ft =>
      dsimp only
      by_cases h2 : ft.length < inst.groupSize * 2
      · simp [h2]
      · simp only [h2, if_false]
        cases getKey U inst.keys (ft.take inst.groupSize) with
        | none => rfl
        | some i =>
          dsimp only
          cases dry with
          | true => rfl
          | false =>
            simp only [Bool.false_eq_true, if_false]
            rw [List.getElem?_map]
            cases inst.keys[i]? with
            | none => rfl
            | some k =>
              simp only [Option.map_some, hg.id]
              have : decipher U f ⟨inst.groupSize, (inst.under g).keyLength, (inst.under g).columns, (inst.under g).keyColumns, inst.keys.map g, (inst.under g).messages,
                  (inst.under g).callSign, inst.nextAddr + 1⟩ { m with keyId := ⟨inst.nextAddr, k.id.val⟩, cipherText := ft.drop inst.groupSize } = _ :=
                decipher_inert hg U f { inst with nextAddr := inst.nextAddr + 1 } { m with keyId := ⟨inst.nextAddr, k.id.val⟩, cipherText := ft.drop inst.groupSize }
              rw [this]
              generalize decipher U f { inst with nextAddr := inst.nextAddr + 1 } _ = r
              obtain ⟨o, i2, m2⟩ := r
              cases o <;> rfl

end K431
