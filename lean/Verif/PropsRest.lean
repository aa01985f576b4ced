import Verif.RestLemmas
import Verif.PropsHistory

/-!
# C115: a stored message stays as it is while work goes on elsewhere
-/

namespace K431
open Spec

/-- **C115**, full statement: take any sequence of operations none of which is applied to the message with the id `x`: keys are
generated, deleted, imported and marked; messages are created; other messages are enciphered, deciphered and deleted; calls succeed or
fail.  A message with the id `x` that was stored before is stored after them, with the same recipients, sender, time, plaintext,
ciphertext and radiogram, and with the same key id. -/
def C115_Statement : Prop :=
  ∀ (U : Unicode), U.Lawful → ∀ (x : Runes) (inst inst' : Inst), Relation.ReflTransGen (Elsewhere U x) inst inst' →
    ∀ m ∈ inst.messages, m.id = x → ∃ m' ∈ inst'.messages, m'.record = m.record ∧ m'.keyId.val = m.keyId.val

/-- the store after one message has been sent: its key id is that of the key it was given -/
def exJustSent : Inst := (exSend ⟨exStation, []⟩ ["OP DE SM = HEJ"]).inst

/-- The statement is false: the message sent last shares the array of the id of its key, and deleting the key overwrites that
array.  The message is still there, but nothing tells any more which key it was enciphered with. -/
theorem C115_violated : ¬ C115_Statement := by
  intro h
  have hs := Elsewhere.deleteKey (U := unicode15) (x := lit "AAAA") (fun _ => ⟨fun _ _ => -1, fun _ _ => -1⟩) [lit "A"] exJustSent
  have := h unicode15 unicode15_lawful (lit "AAAA") exJustSent _ (.single hs) (exJustSent.messages.headD ⟨[], [], [], 0, Sl.nil, [], [], []⟩)
    (by decide +kernel) (by decide +kernel)
  obtain ⟨m', hm', _, hk⟩ := this
  exact (by decide +kernel : ∀ y ∈ (deleteKey unicode15 (fun _ => ⟨fun _ _ => -1, fun _ _ => -1⟩) exJustSent [lit "A"]).2.messages,
    y.keyId.val ≠ (exJustSent.messages.headD ⟨[], [], [], 0, Sl.nil, [], [], []⟩).keyId.val) m' hm' hk

/-- what happened -/
example : exJustSent.messages.map (fun m => (m.id, m.keyId.val)) = [(lit "AAAA", lit "A")] ∧
    ((deleteKey unicode15 (fun _ => ⟨fun _ _ => -1, fun _ _ => -1⟩) exJustSent [lit "A"]).2.messages.map (fun m => (m.id, m.keyId.val))) =
      [(lit "AAAA", [-1])] := by decide +kernel

/-- **C115** (partial; missing: the contents of a key id whose array is shared): whatever goes on elsewhere, the message is still
stored, with the same recipients, sender, time, plaintext, ciphertext and radiogram, and with a key id of the same length: an empty key
id stays empty. -/
theorem C115_partial (U : Unicode) (x : Runes) (inst inst' : Inst) (h : Relation.ReflTransGen (Elsewhere U x) inst inst') :
    ∀ m ∈ inst.messages, m.id = x → ∃ m' ∈ inst'.messages, m'.record = m.record ∧ m'.keyId.val.length = m.keyId.val.length := by
  have hR : Reserved (fun _ => False) x inst := ⟨fun _ h => h.elim, fun _ _ h => h, fun _ _ _ => .inr (fun h => h)⟩
  intro m hm hx
  obtain ⟨m', hm', hs⟩ := (elsewhere_rests h hR).2 m hm hx
  exact ⟨m', hm', hs.record, hs.length⟩

/-- **C115** (partial; missing: key ids that share the array of a key or of another message): the key id stays as well if no key
and no other message is a view of the array of it.  That is so for every message that was received, for every message whose key
was named, and for every message that has been saved and loaded. -/
theorem C115_own_partial (U : Unicode) (inst inst' : Inst) (m : Msg) (hm : m ∈ inst.messages)
    (ha : m.keyId.addr < inst.nextAddr) (hk : ∀ k ∈ inst.keys, k.id.addr ≠ m.keyId.addr)
    (ho : ∀ y ∈ inst.messages, y.id ≠ m.id → y.keyId.val = [] ∨ y.keyId.addr ≠ m.keyId.addr)
    (h : Relation.ReflTransGen (Elsewhere U m.id) inst inst') :
    ∃ m' ∈ inst'.messages, m'.record = m.record ∧ m'.keyId = m.keyId := by
  have hR : Reserved (fun a => a = m.keyId.addr) m.id inst := ⟨by rintro a rfl; exact ha, hk, ho⟩
  obtain ⟨m', hm', hs⟩ := (elsewhere_rests h hR).2 m hm rfl
  exact ⟨m', hm', hs.record, hs.same rfl⟩

/-- the store after a message with a named key has been sent, and that message -/
def exKeyed : Inst := (exSend ⟨exStation, []⟩ ["OP DE SM = HEJ", "", "A"]).inst
def exKeyedMsg : Msg := exKeyed.messages.headD ⟨[], [], [], 0, Sl.nil, [], [], []⟩

/-- not vacuous: the message whose key was named keeps its key id when the key is deleted -/
example : exKeyedMsg ∈ exKeyed.messages ∧ exKeyedMsg.keyId.val = lit "A" ∧ exKeyedMsg.keyId.addr < exKeyed.nextAddr ∧
    (∀ k ∈ exKeyed.keys, k.id.addr ≠ exKeyedMsg.keyId.addr) ∧
    (∀ y ∈ exKeyed.messages, y.id ≠ exKeyedMsg.id → y.keyId.val = [] ∨ y.keyId.addr ≠ exKeyedMsg.keyId.addr) ∧
    exKeyed.keys.length = 2 ∧
    ∃ inst', Relation.ReflTransGen (Elsewhere unicode15 exKeyedMsg.id) exKeyed inst' ∧ inst'.keys.length = 1 ∧ inst'.messages = [exKeyedMsg] :=
  ⟨by decide +kernel, by decide +kernel, by decide +kernel, by decide +kernel, by decide +kernel, by decide +kernel, _,
    .single (Elsewhere.deleteKey (fun _ => ⟨fun _ _ => -1, fun _ _ => -1⟩) [lit "A"] exKeyed), by decide +kernel, by decide +kernel⟩

/-- a store in which all key ids are views of arrays that have been allocated -/
def Allocated (inst : Inst) : Prop :=
  (∀ k ∈ inst.keys, k.id.addr < inst.nextAddr) ∧ (∀ y ∈ inst.messages, y.keyId.val = [] ∨ y.keyId.addr < inst.nextAddr)

/-- **C115** (partial, as above): a message that was received, or whose key was named, has a key id of its own.  So from the moment
`NewTextMessage` has stored it, it keeps its key id whatever goes on elsewhere. -/
theorem C115_created_partial (U : Unicode) (noise : Nat → Rune) (E : RadioEnv) (f r : Runes) (rest : List Runes) (inst inst1 inst' : Inst) (t t' : Tape)
    (p m : Msg) (ha : Allocated inst) (hp : parseRadiogram U E inst.messages r t = some (.ok p, t'))
    (hm : newTextMessage U noise f (fun _ => .ok p) inst (r :: rest) = (.ok m, inst1))
    (hown : rest ≠ [] ∨ isMyCall U inst p = false)
    (h : Relation.ReflTransGen (Elsewhere U m.id) inst1 inst') :
    ∃ m' ∈ inst'.messages, m'.record = m.record ∧ m'.keyId.val = m.keyId.val := by
  obtain ⟨hmem, hc⟩ := newTextMessage_own (parse_noKey hp) hm hown
  rcases hc with hv | ⟨h1, h2, h3, h4⟩
  · obtain ⟨m', hm', e1, e2⟩ := C115_partial U m.id inst1 inst' h m hmem rfl
    rw [hv] at e2 ⊢
    exact ⟨m', hm', e1, List.length_eq_zero_iff.1 e2⟩
  · have hk : ∀ k ∈ inst1.keys, k.id.addr ≠ m.keyId.addr :=
      h3.off (A := fun a => a = m.keyId.addr) (fun k hk e => by have := ha.1 k hk; omega)
    have ho : ∀ y ∈ inst1.messages, y.id ≠ m.id → y.keyId.val = [] ∨ y.keyId.addr ≠ m.keyId.addr := by
      intro y hy hne
      rw [h4, List.mem_append, List.mem_singleton] at hy
      rcases hy with hy | rfl
      · rcases ha.2 y hy with e | e
        · exact .inl e
        · right; omega
      · exact absurd rfl hne
    obtain ⟨m', hm', e1, e2⟩ := C115_own_partial U inst1 inst' m hmem (by omega) hk ho h
    exact ⟨m', hm', e1, by rw [e2]⟩

/-- not vacuous: such a message, received from another station and deciphered, and one with a named key -/
def exCreated (r : String) (rest : List String) : Option (Bool × Runes × Nat) :=
  match parseRadiogram unicode15 exRadio exStation.messages (lit r) (exIdTape ++ [0, 0, 0, 2 ^ 32]) with
  | some (.ok p, _) =>
    match newTextMessage unicode15 (fun _ => -1) [] (fun _ => .ok p) exStation (lit r :: rest.map lit) with
    | (.ok m, _) => some (isMyCall unicode15 exStation p, m.keyId.val, m.keyId.addr)
    | _ => none
  | _ => none

example : Allocated exStation ∧ exCreated "SM DE OP = AQWERTYU" [] = some (false, lit "A", exStation.nextAddr) ∧
    exCreated "OP DE SM = HEJ" ["", "A"] = some (true, lit "A", exStation.nextAddr) ∧
    exCreated "OP DE SM = HEJ" [] = some (true, lit "A", 1) := by
  refine ⟨by unfold Allocated; decide +kernel, by decide +kernel, by decide +kernel, by decide +kernel⟩

end K431
