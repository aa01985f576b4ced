import Verif.NamedLemmas
import Verif.PropsCipher

/-!
# C13, C15: messages that name their key

What the program does with a key named by the operator, exactly.
-/

namespace K431
open Spec

theorem named_facts {U : Unicode} (hU : U.Lawful) {noise : Nat → Rune} {f : Runes} {inst inst' : Inst} {m m' : Msg} {chunks : List Chunk} (hwf : WellFormed inst.keys) (hnamed : m.keyId.val ≠ [])
    (h : encipherT U noise f inst m = (.ok chunks, inst', m')) :
    ∃ (i : Nat) (k : Key) (rest : List Nat), inst.keys[i]? = some k ∧ k.id.val = m.keyId.val ∧ k.used = false ∧ keysOf chunks = i :: rest ∧ rest.Nodup ∧
      (∀ j ∈ rest, ∃ k', inst.keys[j]? = some k' ∧ Selectable inst.groupSize m.recipients k') ∧ (∀ j, usedAt inst'.keys j = (usedAt inst.keys j || decide (j ∈ rest))) ∧
      ∀ ch ∈ chunks, ch.enc ≠ [] := by
  obtain ⟨inst1, m1, i, s, out, e⟩ := encipherT_ok h
  have hsplit : inst1 = inst ∧ m1.keyId = m.keyId ∧ ∃ (j : Nat) (k : Key), inst.keys[j]? = some k ∧ k.id.val = m.keyId.val ∧ k.used = false := by
    have hen := e.enriched
    cases hen with
    | preset j k h1 h2 h3 h4 h5 h6 =>
      rw [(withId_fields f m).2.2.1] at h4
      exact ⟨rfl, (withId_fields f m).2.2.1, j, k, h3, h4, h5⟩
    | auto j k' h1 => rw [(withId_fields f m).2.2.1] at h1; exact absurd h1 hnamed
  obtain ⟨rfl, hkid, j, k, hj, hid, hu⟩ := hsplit
  have hfirst := e.first
  rw [hkid, ← hid, hwf.getKey hU hj] at hfirst
  cases hfirst
  have hrec : m1.recipients = m.recipients := by rw [e.enriched.plainText.2.1, (withId_fields f m).2.1]
  obtain ⟨t, t1, t2, t3, t4, t5⟩ := encLoop_marks (loopOk_start _ _) rfl e.loop
  refine ⟨_, k, t, hj, hid, hu, by rw [e.keysOf_eq]; exact t1, t3, ?_, by rw [e.keyId_eq.2.2]; exact t2, ?_⟩
  · intro x hx
    obtain ⟨k', h1, h2⟩ := t4 x hx
    exact ⟨k', h1, by rw [← hrec]; exact (eligible_iff _ _ _ _).1 h2⟩
  · intro ch hch
    rw [e.hchunks] at hch
    rcases List.mem_append.1 hch with hch | hch
    · exact t5 ch hch
    · rw [List.mem_singleton] at hch
      subst hch
      have hpt : m1.plainText ≠ [] := by rw [e.enriched.plainText.1, (withId_fields f m).1]; exact e.plain
      have := encLoop_cur_ne (loopOk_start _ _) hpt e.loop
      simp [this]

/-- C13 for a message that names its key: the text begins with the named key; the keys of all further parts are selected by the program, are pairwise different and may be selected for the recipients.
A key letter is used twice exactly if the named key is among them. -/
theorem C13_named (U : Unicode) (hU : U.Lawful) (noise : Nat → Rune) (f : Runes) (inst inst' : Inst) (m m' : Msg) (chunks : List Chunk) (hwf : WellFormed inst.keys)
    (hnamed : m.keyId.val ≠ []) (h : encipherT U noise f inst m = (.ok chunks, inst', m')) :
    ∃ (i : Nat) (k : Key) (rest : List Nat), inst.keys[i]? = some k ∧ k.id.val = m.keyId.val ∧ keysOf chunks = i :: rest ∧ rest.Nodup ∧
      (∀ j ∈ rest, ∃ k', inst.keys[j]? = some k' ∧ Selectable inst.groupSize m.recipients k') ∧ ((lettersUsed chunks).Nodup ↔ i ∉ rest) := by
  obtain ⟨i, k, rest, h1, h2, -, h3, h4, h5, -, h6⟩ := named_facts hU hwf hnamed h
  refine ⟨i, k, rest, h1, h2, h3, h4, h5, ?_, ?_⟩
  · intro hn hi
    cases chunks with
    | nil => simp [keysOf] at h3
    | cons ch cs =>
      simp only [keysOf, List.map_cons, List.cons.injEq] at h3
      obtain ⟨rfl, rfl⟩ := h3
      obtain ⟨y, hy, hk⟩ := List.mem_map.1 hi
      exact lettersUsed_twice (a := []) (h6 ch (by simp)) (h6 y (by simp [hy])) hk.symm hy hn
  · intro hi
    exact lettersUsed_nodup _ (by rw [h3]; exact List.nodup_cons.2 ⟨hi, h4⟩)

/-- C13 for a message that names a key which the program would not select for its recipients, or whose text takes one key: no key letter is used twice. -/
theorem C13_named_other (U : Unicode) (hU : U.Lawful) (noise : Nat → Rune) (f : Runes) (inst inst' : Inst) (m m' : Msg) (chunks : List Chunk) (hwf : WellFormed inst.keys)
    (hnamed : m.keyId.val ≠ []) (h : encipherT U noise f inst m = (.ok chunks, inst', m'))
    (hother : (∀ k ∈ inst.keys, k.id.val = m.keyId.val → ¬ KeptBy m.recipients k) ∨ chunks.length = 1) : (lettersUsed chunks).Nodup := by
  obtain ⟨i, k, rest, h1, h2, h3, h4, h5, h6⟩ := C13_named U hU noise f inst inst' m m' chunks hwf hnamed h
  refine h6.2 (fun hi => ?_)
  rcases hother with ho | ho
  · obtain ⟨k', hk', hs⟩ := h5 i hi
    rw [h1] at hk'
    cases hk'
    exact ho k (List.mem_of_getElem? h1) h2 hs.2.2
  · have : (keysOf chunks).length = 1 := by simpa [keysOf] using ho
    rw [h3] at this
    cases rest with
    | nil => simp at hi
    | cons a b => simp at this

/-- C15 for a message that names its key: exactly the keys of the parts after the first are marked in addition, nothing else about any key changes.  So the named key stays unmarked unless it is used a second time. -/
theorem C15_named (U : Unicode) (hU : U.Lawful) (noise : Nat → Rune) (f : Runes) (inst inst' : Inst) (m m' : Msg) (chunks : List Chunk) (hwf : WellFormed inst.keys)
    (hnamed : m.keyId.val ≠ []) (h : encipherT U noise f inst m = (.ok chunks, inst', m')) :
    inst'.keys.length = inst.keys.length ∧
    ∀ (j : Nat) (k : Key), inst.keys[j]? = some k → inst'.keys[j]? = some { k with used := k.used || decide (j ∈ keysOf chunks.tail) } := by
  obtain ⟨i, k0, rest, h1, h2, -, h3, h4, h5, h6, -⟩ := named_facts hU hwf hnamed h
  have ht : keysOf chunks.tail = rest := by
    cases chunks with
    | nil => simp [keysOf] at h3
    | cons ch cs =>
      simp only [keysOf, List.map_cons, List.cons.injEq] at h3
      exact h3.2
  obtain ⟨inst1, m1, i', s, out, e⟩ := encipherT_ok h
  have hsm : SameMat inst'.keys inst.keys := by rw [e.keyId_eq.2.2]; exact e.sameMat
  refine ⟨hsm.length, ?_⟩
  intro j k hk
  obtain ⟨k', hk', hm⟩ := hsm.symm.get hk
  have hu := h6 j
  simp only [usedAt, hk', hk] at hu
  rw [ht, hk', ← hu]
  obtain ⟨a1, a2, a3, a4, a5, a6, a7, a8⟩ := k'
  obtain ⟨b1, b2, b3, b4, b5, b6, b7, b8⟩ := k
  simp only [Key.mat, Key.mk.injEq, true_and] at hm
  simp [hm]

/-- not vacuous: a long message names key B, which is not for the recipient, who keeps key A -/
def exNamedOther : Msg := { exMsg "HEJ DU DIN" with keyId := ⟨2, lit "B"⟩, recipients := [lit "OP"] }
@[inherit_doc exNamedOther]
def exNamedStore : Inst := exInst [{ exKey 1 "A" "QWERTYUIOP" with keepers := [⟨7, lit "OP"⟩] }, exKey 2 "B" "ASDFGHJKLZ"]

example : WellFormed exNamedStore.keys ∧ exNamedOther.keyId.val ≠ [] ∧ (∀ k ∈ exNamedStore.keys, k.id.val = exNamedOther.keyId.val → ¬ KeptBy exNamedOther.recipients k) ∧
    (encipherT unicode15 (fun _ => 0) [] exNamedStore exNamedOther).1.val?.map keysOf = some [1, 0] ∧
    (encipherT unicode15 (fun _ => 0) [] exNamedStore exNamedOther).2.1.keys.map Key.used = [true, false] := by
  refine ⟨by decide, by decide, by decide, by decide +kernel, by decide +kernel⟩

/-- and a message for which the named key is used twice (`C13_violated`): here key 0 is named and selected -/
example : WellFormed ex1.keys ∧ exPreset.keyId.val ≠ [] ∧ (encipherT unicode15 (fun _ => 0) [] ex1 exPreset).1.val?.map keysOf = some [0, 0] := by decide

end K431
