import Verif.MsgLemmas
import Verif.PropsEncipher
import Verif.PropsDecipher
import Verif.PropsKeys
import Verif.PropsRadiogram

/-!
# Properties of messages: C27, C28, C48, C49
-/

namespace K431
open Spec

/-! ## C27: deleting messages -/

/-- **C27**, full statement, for stores whose message ids are pairwise different. -/
def C27_Statement : Prop :=
  ∀ (noise : Nat → Nat → Rune) (inst : Inst) (ids : List Runes), (inst.messages.map Msg.id).Nodup →
    (deleteMessage noise inst ids).2.keys = inst.keys ∧
    (deleteMessage noise inst ids).2.messages.Perm (inst.messages.filter (fun m => !decide (m.id ∈ ids))) ∧
    (deleteMessage noise inst ids).1 = (inst.messages.filter (fun m => decide (m.id ∈ ids))).length

/-- a station with two keys kept by OP -/
def exStation : Inst := { ex2 with
  callSign := lit "SM"
  keys := [{ exKey 1 "A" "QWERTYUIOP" with keepers := [⟨50, lit "OP"⟩] }, { exKey 2 "B" "ASDFGHJKLZ" with keepers := [⟨51, lit "OP"⟩] }] }

/-- the station after a radiogram, and what the call returned -/
def exNew (args : List String) (inst : Inst := exStation) : Outcome Msg × Inst :=
  match newTextMessageRun unicode15 (fun _ => 0) exRadio [] inst (args.map lit) exIdTape with
  | some r => r.1
  | none => (.panic, inst)

/-- a store with one message, enciphered with its key -/
def exSent : Inst := (exNew ["OP DE SM = HEJ"]).2

/-- The statement is false: deleting a message enciphered in this session overwrites the id of its key. -/
theorem C27_violated : ¬ C27_Statement := by
  intro h
  have := (h (fun _ _ => 0) exSent [lit "AAAA"] (by decide +kernel)).1
  revert this
  decide +kernel

/-- the key before and after -/
example : exSent.keys.map (fun k => k.id.val) = [lit "A", lit "B"] ∧
    (deleteMessage (fun _ _ => 0) exSent [lit "AAAA"]).2.keys.map (fun k => k.id.val) = [[0], lit "B"] := by decide +kernel

/-- **C27**, what holds if the message ids are pairwise different: exactly the messages with the given ids are removed, their number
is returned, and nothing else changes but the contents of arrays holding the key id of a removed message:
each such array keeps its length; every key id and message key id in another array is as before.  With no such sharing the full
statement holds.  Missing: the ids of the keys the deleted messages were enciphered with. -/
theorem C27_partial (noise : Nat → Nat → Rune) (inst : Inst) (ids : List Runes) (hn : (inst.messages.map Msg.id).Nodup) :
    (deleteMessage noise inst ids).1 = (inst.messages.filter (fun m => decide (m.id ∈ ids))).length ∧
    (∃ g : Sl → Sl,
      (∀ s, (¬ ∃ m ∈ inst.messages, m.id ∈ ids ∧ m.keyId.val ≠ [] ∧ m.keyId.addr = s.addr) → g s = s) ∧
      (∀ s, (g s).addr = s.addr ∧ (g s).val.length = s.val.length) ∧
      (deleteMessage noise inst ids).2 = { inst with
        keys := inst.keys.map (fun k => { k with id := g k.id }), messages := (deleteMessage noise inst ids).2.messages } ∧
      (deleteMessage noise inst ids).2.messages.Perm
        ((inst.messages.filter (fun m => !decide (m.id ∈ ids))).map (fun m => { m with keyId := g m.keyId }))) ∧
    ((∀ m ∈ inst.messages, m.id ∈ ids → m.keyId.val ≠ [] →
        (∀ k ∈ inst.keys, k.id.addr ≠ m.keyId.addr) ∧
        (∀ m' ∈ inst.messages, m'.id ∉ ids → m'.keyId.addr ≠ m.keyId.addr)) →
      (deleteMessage noise inst ids).2 = { inst with messages := (deleteMessage noise inst ids).2.messages } ∧
      (deleteMessage noise inst ids).2.messages.Perm (inst.messages.filter (fun m => !decide (m.id ∈ ids)))) := by
  obtain ⟨g, o, e, p, c⟩ := deleteMessage_spec ids noise inst hn
  refine ⟨c, ⟨g, o.other, fun s => ⟨o.addr s, o.length s⟩, e, p⟩, ?_⟩
  intro hs
  have h1 : inst.keys.map (Key.withId g) = inst.keys := by
    conv => rhs; rw [← List.map_id inst.keys]
    apply List.map_congr_left
    intro k hk
    have : g k.id = k.id := o.other _ (by rintro ⟨m, a, b, c, d⟩; exact (hs m a b c).1 k hk d.symm)
    simp [Key.withId, this]
  have h2 : (inst.messages.filter (fun m => !decide (m.id ∈ ids))).map (Msg.withKey g) =
      inst.messages.filter (fun m => !decide (m.id ∈ ids)) := by
    conv => rhs; rw [← List.map_id (inst.messages.filter _)]
    apply List.map_congr_left
    intro m' hm'
    rw [List.mem_filter] at hm'
    have : g m'.keyId = m'.keyId := o.other _ (by
      rintro ⟨m, a, b, c, d⟩; exact (hs m a b c).2 m' hm'.1 (by simpa using hm'.2) d.symm)
    simp [Msg.withKey, this]
  rw [h1] at e
  rw [h2] at p
  exact ⟨e, p⟩

/-- a store with three messages that share no arrays -/
def exBox : Inst := { ex1 with messages :=
  [{ exMsg "X" with id := lit "A1", keyId := ⟨11, lit "Q"⟩ }, { exMsg "Y" with id := lit "A2" }, { exMsg "Z" with id := lit "A3" }] }

/-- non-vacuity: one of three goes; the case of the id counts -/
example : (exBox.messages.map Msg.id).Nodup ∧ (deleteMessage (fun _ _ => 0) exBox [lit "A1", lit "a2", lit "B"]).1 = 1 ∧
    (deleteMessage (fun _ _ => 0) exBox [lit "A1", lit "a2", lit "B"]).2.messages.map Msg.id = [lit "A3", lit "A2"] := by decide

/-! ## C28: message ids -/

/-- **C28**, first part: a new id has four letters or digits and is not the id of a stored message. -/
theorem C28_newId (msgs : List Msg) (t t' : Tape) (id : Runes) (h : newUniqueMessageId msgs t = some (id, t')) :
    id.length = 4 ∧ (∀ c ∈ id, IsAlnum c) ∧ ∀ m ∈ msgs, m.id ≠ id := by
  obtain ⟨h1, h2, h3⟩ := newUniqueMessageId_spec h
  exact ⟨h1, h2, fun m hm e => h3 (List.mem_map.2 ⟨m, hm, e⟩)⟩

/-- non-vacuity, with a collision on the first draw -/
example : newUniqueMessageId [{ exMsg "X" with id := lit "AAAA" }] [0, 0, 0, 0, 0, 0, 0, 2 ^ 32] = some (lit "AAAB", []) := by
  decide +kernel

/-- One operation on the message store or the keys. -/
inductive MsgStep (U : Unicode) : Inst → Inst → Prop
  /-- an operation on the keys -/
  | key {inst inst' : Inst} : KeyStep U inst inst' → MsgStep U inst inst'
  /-- a call of `NewTextMessage`, whatever its outcome -/
  | create {noise : Nat → Rune} {E : RadioEnv} {f : Runes} {inst inst' : Inst} {args : List Runes} {t t' : Tape} {o : Outcome Msg} :
      newTextMessageRun U noise E f inst args t = some ((o, inst'), t') → MsgStep U inst inst'
  /-- deleting messages -/
  | delete (noise : Nat → Nat → Rune) (ids : List Runes) (inst : Inst) : MsgStep U inst (deleteMessage noise inst ids).2
  | deleteByString (noise : Nat → Nat → Rune) (args : List Runes) (inst : Inst) :
      MsgStep U inst (deleteMessageByString U noise inst args).2
  /-- enciphering a stored message, whatever the outcome -/
  | encipher {noise : Nat → Rune} {f : Runes} {inst inst' : Inst} {m m' : Msg} {i : Nat} {t t' : Tape} {o : Outcome Unit} :
      newUniqueMessageId inst.messages t = some (f, t') → inst.messages[i]? = some m →
      encipher U noise f inst m = (o, inst', m') → MsgStep U inst { inst' with messages := inst'.messages.set i m' }
  /-- deciphering a stored message -/
  | decipher {f : Runes} {inst inst' : Inst} {m m' : Msg} {i : Nat} {t t' : Tape} {o : Outcome Unit} :
      newUniqueMessageId inst.messages t = some (f, t') → inst.messages[i]? = some m →
      decipher U f inst m = (o, inst', m') → MsgStep U inst { inst' with messages := inst'.messages.set i m' }
  /-- trying to decipher the text of a stored message -/
  | tryDecipher {f : Runes} {inst inst' : Inst} {m m' : Msg} {i : Nat} {dry : Bool} {t t' : Tape} {o : Outcome Unit} :
      newUniqueMessageId inst.messages t = some (f, t') → inst.messages[i]? = some m →
      tryDecipher U f dry inst m = (o, inst', m') → MsgStep U inst { inst' with messages := inst'.messages.set i m' }

/-- **C28**, second part: in every history of operations on messages and keys the ids of the stored messages stay pairwise different. -/
theorem C28_unique (U : Unicode) (inst inst' : Inst) (h0 : (inst.messages.map Msg.id).Nodup)
    (h : Relation.ReflTransGen (MsgStep U) inst inst') : (inst'.messages.map Msg.id).Nodup := by
  have hmap : ∀ (l : List Msg) (g : Sl → Sl), (l.map (Msg.withKey g)).map Msg.id = l.map Msg.id := by
    intro l g; rw [List.map_map]; rfl
  -- replacing a stored message by itself with a fresh id
  have hset : ∀ (l : List Msg) (i : Nat) (m m' : Msg) (f : Runes) (t t' : Tape), (l.map Msg.id).Nodup →
      newUniqueMessageId l t = some (f, t') → l[i]? = some m → m'.id = (withId f m).id → ∀ l' : List Msg, l'.map Msg.id = l.map Msg.id →
      ((l'.set i m').map Msg.id).Nodup := by
    intro l i m m' f t t' hn hf hm hid l' hl'
    rw [List.map_set, hl', hid]
    unfold withId
    split
    · obtain ⟨_, _, h3⟩ := newUniqueMessageId_spec hf
      exact nodup_set hn h3
    · have : (l.map Msg.id).set i m.id = l.map Msg.id := by
        rw [← List.map_set]
        congr 1
        apply List.ext_getElem?
        intro j
        rw [List.getElem?_set]
        split
        · rename_i e; subst e; rw [hm]; simp [(List.getElem?_eq_some_iff.1 hm).1]
        · rfl
      rw [this]; exact hn
  induction h with
  | refl => exact h0
  | @tail b c _ hstep ih =>
    cases hstep with
    | key hk =>
      cases hk with
      | newKey hn => rw [newKey_messages hn]; exact ih
      | @generate now start n expire keepers _ _ t t' o hg =>
        unfold generateKeys at hg
        split at hg
        · rcases hl : generateLoop U now _ keepers n.toNat _ t with _ | ⟨i1, t1⟩
          · rw [hl] at hg; cases hg
          · rw [hl] at hg
            simp only [Option.map_some, Option.some.injEq, Prod.mk.injEq] at hg
            rw [← hg.2.1, generateLoop_messages hl]
            exact ih
        · simp only [Option.some.injEq, Prod.mk.injEq] at hg; rw [← hg.2.1]; exact ih
        · simp only [Option.some.injEq, Prod.mk.injEq] at hg; rw [← hg.2.1]; exact ih
      | delete noise ids => rw [deleteKey_msgIds]; exact ih
      | deleteByString noise args => unfold deleteKeyByString; rw [deleteKey_msgIds]; exact ih
      | deleteBySummary noise lines => rw [deleteBySummary_msgIds]; exact ih
      | importKeys noise o filter loaded => rw [importKeys_msgIds]; exact ih
    | @create noise E f _ _ args t t' o hc =>
      unfold newTextMessageRun at hc
      cases args with
      | nil =>
        simp only [newTextMessage, Option.some.injEq, Prod.mk.injEq] at hc
        rw [← hc.1.2]; exact ih
      | cons r rest =>
        simp only at hc
        split at hc
        · cases hc
        · rename_i o1 t1 hpr
          simp only [Option.some.injEq, Prod.mk.injEq] at hc
          have hfresh : ∀ p, o1 = .ok p → p.id.length = 4 ∧ p.id ∉ (List.map Msg.id b.messages) := by
            intro p hp
            rw [hp] at hpr
            obtain ⟨id, t2, h1, h2⟩ := parse_id hpr
            obtain ⟨a, _, c⟩ := newUniqueMessageId_spec h1
            rw [h2]; exact ⟨a, c⟩
          have hadd : ∀ (p : Msg) (l : List Msg) (m : Msg), o1 = .ok p → l.map Msg.id = List.map Msg.id b.messages → m.id = (withId f p).id →
              ((l ++ [m]).map Msg.id).Nodup := by
            intro p l m hp hl hm
            obtain ⟨h4, h5⟩ := hfresh p hp
            rw [List.map_append, hl, List.nodup_append]
            refine ⟨ih, by simp, ?_⟩
            intro a ha b hb e
            have hw : (withId f p).id = p.id := by unfold withId; rw [if_neg (by omega)]
            simp only [List.map_cons, List.map_nil, List.mem_singleton] at hb
            rw [e, hb, hm, hw] at ha
            exact h5 ha
          have hcases := newTextMessage_cases hc.1
          cases hcases with
          | failed _ _ hm => rw [hm, hmap]; exact ih
          | @own r' rest' p p1 m inst1 inst2 ha hp hmy hcase he =>
            obtain ⟨hi, _⟩ := encipher_ok_messages he
            obtain ⟨_, hid⟩ := encipher_messages he
            have h1 : inst1.messages = b.messages ∧ p1.id = p.id := by
              rcases hcase with ⟨_, rfl, rfl⟩ | ⟨a, b, tl, _, rfl, rfl⟩ <;> exact ⟨rfl, rfl⟩
            have h2 : (withId f p1).id = (withId f p).id := by
              unfold withId; rw [h1.2]; split <;> simp [h1.2]
            refine hadd p _ m hp ?_ (hid.trans h2)
            rw [hi]; simp only; rw [h1.1]
          | @other r' rest' p p1 m inst2 o' ha hp hmy hp1 ht =>
            obtain ⟨hi, hid⟩ := tryDecipher_messages ht
            have h1 : p1.id = p.id := by rw [hp1]; split <;> rfl
            have h2 : (withId f p1).id = (withId f p).id := by
              unfold withId; rw [h1]; split <;> simp [h1]
            exact hadd p _ m hp (by rw [hi]) (hid.trans h2)
    | delete noise ids =>
      obtain ⟨g, _, _, p, _⟩ := deleteMessage_spec ids noise _ ih
      rw [(p.map Msg.id).nodup_iff, hmap]
      exact (List.Sublist.map _ List.filter_sublist).nodup ih
    | deleteByString noise args =>
      unfold deleteMessageByString
      obtain ⟨g, _, _, p, _⟩ := deleteMessage_spec (vettedMessageIds U args) noise _ ih
      rw [(p.map Msg.id).nodup_iff, hmap]
      exact (List.Sublist.map _ List.filter_sublist).nodup ih
    | encipher hf hm he =>
      obtain ⟨⟨g, _, hl⟩, hid⟩ := encipher_messages he
      exact hset _ _ _ _ _ _ _ ih hf hm hid _ (by rw [hl, hmap])
    | decipher hf hm he =>
      obtain ⟨hl, hid⟩ := decipher_messages he
      exact hset _ _ _ _ _ _ _ ih hf hm hid _ (by rw [hl])
    | tryDecipher hf hm he =>
      obtain ⟨hl, hid⟩ := tryDecipher_messages he
      exact hset _ _ _ _ _ _ _ ih hf hm hid _ (by rw [hl])

/-- non-vacuity: two messages created, one deleted -/
example : let i1 := (exNew ["OP DE SM = HEJ"]).2
    let i2 := (newTextMessageRun unicode15 (fun _ => 0) exRadio [] i1 [lit "OP DE XX = HEJ"] (exIdTape ++ [0, 0, 0, 2 ^ 32])).map (fun r => r.1.2)
    i2.map (fun i => i.messages.map Msg.id) = some [lit "AAAA", lit "AAAB"] ∧
    i2.map (fun i => (deleteMessage (fun _ _ => 0) i [lit "AAAA"]).2.messages.map Msg.id) = some [lit "AAAB"] := by decide +kernel

/-! ## C48: new messages -/

/-- **C48.** Let `NewTextMessage` return.  If it does not return a message, none was stored: the stored messages are the same
except for the contents of key id arrays (see C16).  If it returns a message, exactly this message was added at the end; it
comes from the radiogram given as first argument; if the sender is the own call-sign, it has the text of the radiogram and
ciphertext made by `Encipher` from it (whole groups of letters, with key id); otherwise it either has the text of the radiogram,
no key id and no ciphertext, and no key was touched, or its ciphertext is the letters of the radiogram text after the key id, and its text
is what `Decipher` made of it. -/
theorem C48_new_message (U : Unicode) (hU : U.Lawful) (noise : Nat → Rune) (E : RadioEnv) (f : Runes) (inst inst' : Inst)
    (args : List Runes) (t t' : Tape) (o : Outcome Msg) (hg : inst.groupSize ≠ 0)
    (h : newTextMessageRun U noise E f inst args t = some ((o, inst'), t')) :
    ((∀ m, o ≠ .ok m) → ∃ g : Sl → Sl, (∀ s, (g s).addr = s.addr ∧ (g s).val.length = s.val.length) ∧
      inst'.messages = inst.messages.map (fun m => { m with keyId := g m.keyId })) ∧
    ∀ m, o = .ok m → inst'.messages = inst.messages ++ [m] ∧
      ∃ r rest p, args = r :: rest ∧ parseRadiogram U E inst.messages r t = some (.ok p, t') ∧
        m.id = p.id ∧ m.from_ = p.from_ ∧ m.dtg = p.dtg ∧ m.radiogram = p.radiogram ∧
        (SameFold U p.from_ inst.callSign →
          m.recipients = p.recipients ∧ m.plainText = p.plainText ∧ m.cipherText ≠ [] ∧ (∀ c ∈ m.cipherText, IsLetter c) ∧
          (∃ n, m.cipherText.length = n * inst.groupSize) ∧ m.keyId.val.length = inst.groupSize ∧
          ∃ inst1 p1, inst1.keys = inst.keys ∧ inst1.groupSize = inst.groupSize ∧ p1.plainText = p.plainText ∧
            encipher U noise f inst1 p1 = (.ok (), { inst' with messages := inst.messages }, m)) ∧
        (¬ SameFold U p.from_ inst.callSign →
          m.recipients = (if p.recipients = [] then [inst.callSign] else p.recipients) ∧
          ((m.plainText = p.plainText ∧ m.keyId.val = [] ∧ m.cipherText = [] ∧ inst'.keys = inst.keys) ∨
            ∃ w k inst1 m1, LettersOf U p.plainText w ∧ m.cipherText = w.drop inst.groupSize ∧ k ∈ inst.keys ∧ m.keyId.val = k.id.val ∧
              inst1.keys = inst.keys ∧ inst1.groupSize = inst.groupSize ∧ m1.cipherText = m.cipherText ∧ m1.keyId.val = m.keyId.val ∧
              decipher U f inst1 m1 = (.ok (), { inst' with messages := inst.messages }, m))) := by
  unfold newTextMessageRun at h
  cases args with
  | nil =>
    simp only [newTextMessage, Option.some.injEq, Prod.mk.injEq] at h
    obtain ⟨⟨rfl, rfl⟩, _⟩ := h
    refine ⟨fun _ => ⟨fun s => s, fun _ => ⟨rfl, rfl⟩, (List.map_id _).symm⟩, ?_⟩
    intro m hm; cases hm
  | cons r rest =>
    simp only at h
    split at h
    · cases h
    · rename_i o1 t1 hpr
      simp only [Option.some.injEq, Prod.mk.injEq] at h
      obtain ⟨hc, rfl⟩ := h
      have hcases := newTextMessage_cases hc
      have hwid : ∀ p p1 : Msg, o1 = .ok p → p1.id = p.id → withId f p1 = p1 := by
        intro p p1 hp hp1
        rw [hp] at hpr
        obtain ⟨id, t2, h1, h2⟩ := parse_id hpr
        have := (newUniqueMessageId_spec h1).1
        unfold withId; rw [if_neg (by rw [hp1, h2]; omega)]
      cases hcases with
      | @failed _ _ g ho hov hm =>
        refine ⟨fun _ => ⟨g, fun s => ⟨hov.addr s, hov.length s⟩, hm⟩, ?_⟩
        intro m hm'; exact absurd hm' (ho m)
      | @own r' rest' p p1 m inst1 inst2 ha hp hmy hcase he =>
        refine ⟨fun hno => absurd rfl (hno m), ?_⟩
        intro m' hm'
        cases hm'
        cases ha
        have hkeys : inst1.keys = inst.keys ∧ inst1.messages = inst.messages ∧ inst1.groupSize = inst.groupSize ∧ p1.id = p.id ∧
            p1.plainText = p.plainText ∧ p1.from_ = p.from_ ∧ p1.dtg = p.dtg ∧ p1.radiogram = p.radiogram ∧ p1.recipients = p.recipients := by
          rcases hcase with ⟨_, rfl, rfl⟩ | ⟨a, b, tl, _, rfl, rfl⟩ <;> exact ⟨rfl, rfl, rfl, rfl, rfl, rfl, rfl, rfl, rfl⟩
        obtain ⟨k1, k2, k3, k4, k5, k6, k7, k8, k9⟩ := hkeys
        obtain ⟨hi, hm⟩ := encipher_ok_messages he
        obtain ⟨q1, q2, q3, q4⟩ := C12_whole_groups U noise f inst1 inst2 p1 m he
        have him : inst2.messages = inst.messages := by rw [hi]; exact k2
        have hsame : ({ ({ inst2 with messages := inst2.messages ++ [m] } : Inst) with messages := inst.messages } : Inst) = inst2 := by
          rw [← him]
        rw [hwid p p1 hp k4] at hm
        refine ⟨by simp only; rw [him], r, rest, p, rfl, by rw [← hp]; exact hpr, ?_, ?_, ?_, ?_, ?_, ?_⟩
        · rw [hm]; exact k4
        · rw [hm]; exact k6
        · rw [hm]; exact k7
        · rw [hm]; exact k8
        · intro _
          refine ⟨by rw [hm]; exact k9, by rw [hm]; exact k5, q1, q2, by rw [← k3]; exact q3, by rw [← k3]; exact q4, inst1, p1, k1, k3, k5, ?_⟩
          rw [hsame]; exact he
        · intro hno
          exact absurd ((equalRunesFold_iff U _ _).1 hmy) hno
      | @other r' rest' p p1 m inst2 o' ha hp hmy hp1 ht =>
        refine ⟨fun hno => absurd rfl (hno m), ?_⟩
        intro m' hm'
        cases hm'
        cases ha
        rw [hp] at hpr
        obtain ⟨caps, _, _, _, _, pk, pc, _⟩ := parse_ok hpr
        have hk : p1.id = p.id ∧ p1.plainText = p.plainText ∧ p1.from_ = p.from_ ∧ p1.dtg = p.dtg ∧ p1.radiogram = p.radiogram ∧
            p1.keyId = p.keyId ∧ p1.cipherText = p.cipherText := by
          rw [hp1]; split <;> exact ⟨rfl, rfl, rfl, rfl, rfl, rfl, rfl⟩
        obtain ⟨k1, k2, k3, k4, k5, k6, k7⟩ := hk
        have hrec : p1.recipients = (if p.recipients = [] then [inst.callSign] else p.recipients) := by
          rw [hp1]
          by_cases hr : p.recipients = []
          · rw [if_pos (by rw [hr]; rfl), if_pos hr]
            simp only [hr]
            rfl
          · rw [if_neg (by simpa using hr), if_neg hr]
        have hw := hwid p p1 hp k1
        obtain ⟨him, _⟩ := tryDecipher_messages ht
        have hsame : ({ ({ inst2 with messages := inst2.messages ++ [m] } : Inst) with messages := inst.messages } : Inst) = inst2 := by
          rw [← him]
        have hfin : m = { p1 with keyId := m.keyId, plainText := m.plainText, cipherText := m.cipherText } ∧
            ((m.plainText = p.plainText ∧ m.keyId.val = [] ∧ m.cipherText = [] ∧ inst2.keys = inst.keys) ∨
            ∃ w k inst1 m1, LettersOf U p.plainText w ∧ m.cipherText = w.drop inst.groupSize ∧ k ∈ inst.keys ∧ m.keyId.val = k.id.val ∧
              inst1.keys = inst.keys ∧ inst1.groupSize = inst.groupSize ∧ m1.cipherText = m.cipherText ∧ m1.keyId.val = m.keyId.val ∧
              decipher U f inst1 m1 = (.ok (), inst2, m)) := by
          by_cases ho : o' = .ok ()
          · subst ho
            obtain ⟨_, w, i, k, f1, _, _, f4, f5⟩ := tryDecipher_ok ht
            obtain ⟨_, _, d3, _⟩ := C20_decipher_marks U hU f { inst with nextAddr := inst.nextAddr + 1 } _ _ _ _ hg f5
            have hwt : withId f (tryMsg f inst p1 k w) = tryMsg f inst p1 k w := hwid p _ hp (by
              unfold tryMsg; simp only; rw [hw]; exact k1)
            rw [hwt] at d3
            have e1 : m.cipherText = (tryMsg f inst p1 k w).cipherText := by rw [d3]
            have e2 : m.keyId = (tryMsg f inst p1 k w).keyId := by rw [d3]
            refine ⟨?_, .inr ⟨w, k, { inst with nextAddr := inst.nextAddr + 1 }, _, (filterText_iff U _ _).1 (by rw [← k2]; exact f1), e1, List.mem_of_getElem? f4, by rw [e2]; rfl,
              rfl, rfl, e1.symm, by rw [e2], f5⟩⟩
            rw [d3]; unfold tryMsg; rw [hw]
          · obtain ⟨_, h2⟩ := C21_all_or_nothing U hU f false inst inst2 p1 m o' hg ht
            obtain ⟨g1, g2, g3, g4, g5⟩ := h2 ho
            rw [hw] at g4
            refine ⟨?_, .inl ⟨g2.trans k2, by rw [g1, k6, pk]; rfl, by rw [g3, k7, pc], by rw [g5]⟩⟩
            rw [g4]
        obtain ⟨hm, hcase⟩ := hfin
        refine ⟨by simp only; rw [him], r, rest, p, rfl, hpr, ?_, ?_, ?_, ?_, ?_, ?_⟩
        · rw [hm]; exact k1
        · rw [hm]; exact k3
        · rw [hm]; exact k4
        · rw [hm]; exact k5
        · intro hyes
          rw [show isMyCall U inst p = true from (equalRunesFold_iff U _ _).2 hyes] at hmy
          cases hmy
        · intro _
          refine ⟨by rw [hm]; exact hrec, ?_⟩
          rw [hsame]
          exact hcase

/-- non-vacuity: an outgoing message, an incoming message in clear, and an incoming message in cipher -/
example : ((exNew ["OP DE SM = HEJ"]).1.val?.map (fun m => (m.plainText, m.keyId.val, m.cipherText.length)) = some (lit "HEJ", lit "A", 3)) ∧
    ((exNew ["SM DE OP = HEJ"]).1.val?.map (fun m => (m.plainText, m.cipherText)) = some (lit "HEJ", [])) ∧
    (let c := ((exNew ["OP DE SM = HEJ"]).1.val?.map Msg.cipherText).getD [];
      (newTextMessageRun unicode15 (fun _ => 0) exRadio [] { exStation with callSign := lit "OP" } [lit "OP DE SM = A" ++ c] exIdTape).map
        (fun r => (r.1.1.val?.map Msg.plainText, r.1.2.messages.length)) = some (some (lit "HEJ"), 1)) := by decide +kernel

/-- ... and a failing one (no key for XX) stores nothing -/
example : (exNew ["XX DE SM = HEJ"]).1 = .err .noKeyFound ∧ (exNew ["XX DE SM = HEJ"]).2.messages = [] := by decide +kernel

/-! ## C49: the key id argument -/

/-- **C49**, full statement, for outgoing messages over the legend and a store whose keys are of letters: with a second argument `key`, the
message is enciphered with the key of this id if it exists, is unused, not compromised and large enough, and an error is returned
if there is no unused and not compromised key of this id. -/
def C49_Statement : Prop :=
  ∀ (U : Unicode), U.Lawful → ∀ (noise : Nat → Rune) (E : RadioEnv) (f : Runes) (inst inst' : Inst) (r key : Runes)
    (t t' t1 : Tape) (o : Outcome Msg) (p : Msg), inst.groupSize ≠ 0 → WellFormed inst.keys →
    (∀ k ∈ inst.keys, ∀ c ∈ k.runes, IsLetter c) →
    newTextMessageRun U noise E f inst [r, key] t = some ((o, inst'), t') →
    parseRadiogram U E inst.messages r t = some (.ok p, t1) → SameFold U p.from_ inst.callSign →
    p.plainText ≠ [] → (∀ c ∈ p.plainText, c ∈ alphabet) →
    (∀ k ∈ inst.keys, k.id.val = toUpperStr U (trimSpace U key) → k.id.val.length = inst.groupSize → k.used = false → k.compromised = false →
      4 * p.plainText.length ≤ capacity inst.groupSize k → ∃ m, o = .ok m ∧ m.keyId.val = k.id.val) ∧
    ((∀ k ∈ inst.keys, k.id.val = toUpperStr U (trimSpace U key) → k.used = true ∨ k.compromised = true) → ∃ e, o = .err e)

/-- The statement is false: with two arguments the call panics (`len(msg) >= 2` but `msg[2]` is read). -/
theorem C49_violated : ¬ C49_Statement := by
  intro h
  have := (h unicode15 unicode15_lawful (fun _ => 0) exRadio [] exStation (exNew ["OP DE SM = A", "A"]).2 (lit "OP DE SM = A") (lit "A") exIdTape [] []
    (exNew ["OP DE SM = A", "A"]).1 ⟨lit "AAAA", [lit "OP"], lit "SM", 0, Sl.nil, lit "A", [], lit "OP DE SM = A"⟩
    (by decide) (by decide) (by decide) (by decide +kernel) (by decide +kernel) (by decide +kernel) (by decide) (by decide)).1
    { exKey 1 "A" "QWERTYUIOP" with keepers := [⟨50, lit "OP"⟩] } (by decide) (by decide) (by decide) rfl rfl (by decide)
  obtain ⟨m, hm, _⟩ := this
  revert hm
  rw [show (exNew ["OP DE SM = A", "A"]).1 = .panic by decide +kernel]
  exact nofun

/-- ... and not only in that case: every outgoing message with exactly two arguments panics. -/
theorem C49_violated_always (U : Unicode) (noise : Nat → Rune) (E : RadioEnv) (f : Runes) (inst inst' : Inst) (r key : Runes)
    (t t' t1 : Tape) (o : Outcome Msg) (p : Msg) (h : newTextMessageRun U noise E f inst [r, key] t = some ((o, inst'), t'))
    (hp : parseRadiogram U E inst.messages r t = some (.ok p, t1)) (hc : SameFold U p.from_ inst.callSign) : o = .panic := by
  unfold newTextMessageRun at h
  simp only [hp] at h
  have hmy : isMyCall U inst p = true := (equalRunesFold_iff U _ _).2 hc
  unfold newTextMessage at h
  simp [hmy] at h
  exact h.1.1.symm

/-- **C49**, what holds: everything in the statement, if the key id is given as **third** argument. -/
theorem C49_partial (U : Unicode) (hU : U.Lawful) (noise : Nat → Rune) (E : RadioEnv) (f : Runes) (inst inst' : Inst) (r x key : Runes)
    (tl : List Runes) (t t' t1 : Tape) (o : Outcome Msg) (p : Msg) (hg : inst.groupSize ≠ 0) (hwf : WellFormed inst.keys)
    (hkeys : ∀ k ∈ inst.keys, ∀ c ∈ k.runes, IsLetter c)
    (h : newTextMessageRun U noise E f inst (r :: x :: key :: tl) t = some ((o, inst'), t'))
    (hp : parseRadiogram U E inst.messages r t = some (.ok p, t1)) (hc : SameFold U p.from_ inst.callSign)
    (hne : p.plainText ≠ []) (hal : ∀ c ∈ p.plainText, c ∈ alphabet) :
    (∀ k ∈ inst.keys, k.id.val = toUpperStr U (trimSpace U key) → k.id.val.length = inst.groupSize → k.used = false → k.compromised = false →
      4 * p.plainText.length ≤ capacity inst.groupSize k → ∃ m, o = .ok m ∧ m.keyId.val = k.id.val) ∧
    ((∀ k ∈ inst.keys, k.id.val = toUpperStr U (trimSpace U key) → k.used = true ∨ k.compromised = true) → ∃ e, o = .err e) := by
  unfold newTextMessageRun at h
  simp only [hp] at h
  have hmy : isMyCall U inst p = true := (equalRunesFold_iff U _ _).2 hc
  simp only [Option.some.injEq, Prod.mk.injEq] at h
  obtain ⟨h, _⟩ := h
  unfold newTextMessage at h
  simp only [hmy, if_true, List.length_cons, ge_iff_le, Nat.le_add_left, List.getElem?_cons_succ, List.getElem?_cons_zero] at h
  constructor
  · intro k hk hid hl hu hcp hcap
    rw [if_neg (by rw [← hid, hl]; simp)] at h
    simp only at h
    have hok := encipher_preset_ok hU (noise := noise) (f := f)
      (inst := { inst with nextAddr := inst.nextAddr + 1 }) (m := { p with keyId := ⟨inst.nextAddr, toUpperStr U (trimSpace U key)⟩ })
      hg hwf hkeys hne hal (by simp only; rw [← hid]; exact hl) hk hid hu hcp hcap
    rcases he : encipher U noise f { inst with nextAddr := inst.nextAddr + 1 }
      { p with keyId := ⟨inst.nextAddr, toUpperStr U (trimSpace U key)⟩ } with ⟨u | e | _, i2, m2⟩
    · rw [he] at h
      simp only [Prod.mk.injEq] at h
      refine ⟨m2, h.1.symm, ?_⟩
      obtain ⟨chunks, hT⟩ : ∃ chunks, encipherT U noise f { inst with nextAddr := inst.nextAddr + 1 }
          { p with keyId := ⟨inst.nextAddr, toUpperStr U (trimSpace U key)⟩ } = (.ok chunks, i2, m2) := by
        unfold encipher at he
        rcases h' : encipherT U noise f { inst with nextAddr := inst.nextAddr + 1 }
          { p with keyId := ⟨inst.nextAddr, toUpperStr U (trimSpace U key)⟩ } with ⟨c | e | _, a, b⟩ <;> rw [h'] at he <;> simp at he
        exact ⟨c, by rw [he.1, he.2]⟩
      obtain ⟨inst1, m1, i, s, out, e⟩ := encipherT_ok hT
      have hen := e.enriched
      rw [e.hm, hid]
      have w3 := (withId_fields f { p with keyId := ⟨inst.nextAddr, toUpperStr U (trimSpace U key)⟩ }).2.2.1
      cases hen with
      | preset => simp only; rw [w3]
      | auto _ _ h1 =>
        rw [w3] at h1
        simp only at h1
        rw [← hid] at h1
        rw [h1] at hl
        exact absurd hl.symm hg
    · rw [he] at hok; cases hok
    · rw [he] at hok; cases hok
  · intro hall
    by_cases hl : (toUpperStr U (trimSpace U key)).length ≠ inst.groupSize
    · rw [if_pos hl] at h
      simp only [Prod.mk.injEq] at h
      exact ⟨_, h.1.symm⟩
    · rw [if_neg hl] at h
      simp only at h
      simp only [ne_eq, Classical.not_not] at hl
      have hbad : ∃ e, (enrichWithKey U f { inst with nextAddr := inst.nextAddr + 1 }
          { p with keyId := ⟨inst.nextAddr, toUpperStr U (trimSpace U key)⟩ }).1 = .err e := by
        rcases hen : enrichWithKey U f { inst with nextAddr := inst.nextAddr + 1 }
          { p with keyId := ⟨inst.nextAddr, toUpperStr U (trimSpace U key)⟩ } with ⟨u | e | _, i2, m2⟩
        · obtain ⟨_, hen'⟩ := enrich_ok (inst := { inst with nextAddr := inst.nextAddr + 1 }) hg hen
          have w3 := (withId_fields f { p with keyId := ⟨inst.nextAddr, toUpperStr U (trimSpace U key)⟩ }).2.2.1
          cases hen' with
          | preset i k h1 h2 h3 h4 h5 h6 h7 =>
            rw [w3] at h4
            rcases hall k (List.mem_of_getElem? h3) h4 with h8 | h8
            · rw [h8] at h5; cases h5
            · rw [h8] at h6; cases h6
          | auto _ _ h1 =>
            rw [w3] at h1
            simp only at h1
            rw [h1] at hl
            exact absurd hl.symm hg
        · exact ⟨e, rfl⟩
        · exact absurd (by rw [hen]) (enrich_not_panic U f { inst with nextAddr := inst.nextAddr + 1 }
            { p with keyId := ⟨inst.nextAddr, toUpperStr U (trimSpace U key)⟩ })
      obtain ⟨e, he⟩ := hbad
      have hT : (encipher U noise f { inst with nextAddr := inst.nextAddr + 1 }
          { p with keyId := ⟨inst.nextAddr, toUpperStr U (trimSpace U key)⟩ }).1 = .err e := by
        unfold encipher encipherT
        simp only [enrich_withId]
        rcases hen : enrichWithKey U f { inst with nextAddr := inst.nextAddr + 1 }
          { p with keyId := ⟨inst.nextAddr, toUpperStr U (trimSpace U key)⟩ } with ⟨u | e' | _, i2, m2⟩
        · rw [hen] at he; cases he
        · rw [hen] at he; cases he; rfl
        · rw [hen] at he; cases he
      rcases he2 : encipher U noise f { inst with nextAddr := inst.nextAddr + 1 }
        { p with keyId := ⟨inst.nextAddr, toUpperStr U (trimSpace U key)⟩ } with ⟨u | e' | _, i2, m2⟩
      · rw [he2] at hT; cases hT
      · rw [he2] at h
        simp only [Prod.mk.injEq] at h
        exact ⟨_, h.1.symm⟩
      · rw [he2] at hT; cases hT

/-- non-vacuity: the second key is taken as asked for; a used one is refused -/
example : (exNew ["OP DE SM = A", "", " b "]).1.val?.map (fun m => m.keyId.val) = some (lit "B") ∧
    (exNew ["OP DE SM = A", "", "C"]).1 = .err .keyIdUnknown ∧ (exNew ["OP DE SM = A", "B"]).1 = .panic := by decide +kernel

end K431
