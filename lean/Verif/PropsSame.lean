import Verif.SameLemmas
import Mathlib.Tactic.Tauto

/-! # C120, C121, C122: what does not matter

The writing of a received ciphertext, the arrangement of the keys in the store, and the order and writing of the recipients.
-/

namespace K431
open Spec

/-- **C120**: how the groups of a received ciphertext are written -- blanks, line breaks, small or capital letters -- does not matter: the
outcome and the instance are the same, and so is the message if it was read; otherwise it keeps the text it had. -/
theorem C120_writing (U : Unicode) (hU : U.Lawful) (f : Runes) (dry : Bool) (inst : Inst) (m : Msg) (b : Runes) (h : Respaced U m.plainText b) :
    let r := tryDecipher U f dry inst m
    tryDecipher U f dry inst { m with plainText := b } =
      (r.1, r.2.1, if r.1 = .ok () ∧ dry = false then r.2.2 else { r.2.2 with plainText := b }) := by
  intro r
  have hf := filterText_respaced hU h
  have hp : (withId f m).plainText = m.plainText := (withId_fields f m).1
  simp only [r]
  unfold tryDecipher
  simp only [withId_text, hp, ← hf]
  by_cases c1 : (withId f m).keyId.val.length > 0
  · simp only [if_pos c1]; simp
  simp only [if_neg c1]
  rcases filterText U m.plainText with _ | w
  · simp
  simp only
  by_cases c2 : w.length < inst.groupSize * 2
  · simp only [if_pos c2]; simp
  simp only [if_neg c2]
  rcases getKey U inst.keys (w.take inst.groupSize) with _ | i
  · simp
  simp only
  cases dry
  · simp only [Bool.false_eq_true, if_false]
    rcases inst.keys[i]? with _ | k
    · simp
    simp only
    have hd := decipher_text U f { inst with nextAddr := inst.nextAddr + 1 }
      { withId f m with keyId := ⟨inst.nextAddr, k.id.val⟩, cipherText := w.drop inst.groupSize } b
    simp only [hp] at hd
    generalize h2 : decipher U f { inst with nextAddr := inst.nextAddr + 1 } ⟨_, _, _, _, _, b, _, _⟩ = r2 at hd ⊢
    generalize h1 : decipher U f { inst with nextAddr := inst.nextAddr + 1 } _ = r1 at hd ⊢
    obtain ⟨o1, i1, m1⟩ := r1
    obtain ⟨o2, i2, m2⟩ := r2
    simp only at hd
    obtain ⟨rfl, rfl, d3, d4⟩ := hd
    have hb := d3 b
    simp only [Msg.mk.injEq] at hb
    rcases o2 with x | e | _
    · simp [d4 x rfl]
    · simp [hb]
    · simp [hb]
  · simp

/-- non-vacuity: two groups, and the same letters written differently -/
example : Respaced unicode15 (lit "AB CD") (lit "abc\nd=") := by
  have h : ∀ c d : Int, c ∈ lit "ABCD" → d = c + 32 → IsLetter (unicode15.toUpper c) ∧ unicode15.toUpper c = unicode15.toUpper d := by
    intro c d hc hd
    subst hd
    revert c
    decide +kernel
  refine .letter (h 65 97 (by decide) rfl).1 (h 65 97 (by decide) rfl).2 (.letter (h 66 98 (by decide) rfl).1 (h 66 98 (by decide) rfl).2
    (.drop (.inl (by decide +kernel)) (.letter (h 67 99 (by decide) rfl).1 (h 67 99 (by decide) rfl).2 (.put (.inl (by decide +kernel))
      (.letter (h 68 100 (by decide) rfl).1 (h 68 100 (by decide) rfl).2 (.put (.inr rfl) .nil))))))

/-- **C121**: what a ciphertext says depends on the ids and letters of the keys only: with two stores that have the same ids with the same
letters, in whatever order, with whatever marks, keepers, times and comments, `Decipher` has the same outcome and makes the same
message. -/
theorem C121_decipher (U : Unicode) (f : Runes) (inst inst' : Inst) (hg : inst.groupSize = inst'.groupSize) (hw : WellFormed inst.keys)
    (hw' : WellFormed inst'.keys) (hs : SamePads inst.keys inst'.keys) (m : Msg) :
    (decipher U f inst m).1 = (decipher U f inst' m).1 ∧ (decipher U f inst m).2.2 = (decipher U f inst' m).2.2 :=
  decipher_same hg hw hw' hs m

/-- C121, for a ciphertext that arrives as text: the same outcome, and the same message but for the place of its key id in memory. -/
theorem C121_received (U : Unicode) (f : Runes) (dry : Bool) (inst inst' : Inst) (hg : inst.groupSize = inst'.groupSize)
    (hw : WellFormed inst.keys) (hw' : WellFormed inst'.keys) (hs : SamePads inst.keys inst'.keys) (m : Msg) :
    (tryDecipher U f dry inst m).1 = (tryDecipher U f dry inst' m).1 ∧
    (tryDecipher U f dry inst m).2.2.keyId.val = (tryDecipher U f dry inst' m).2.2.keyId.val ∧
    { (tryDecipher U f dry inst m).2.2 with keyId := Sl.nil } = { (tryDecipher U f dry inst' m).2.2 with keyId := Sl.nil } := by
  obtain ⟨g, l, c, kc, ks, ms, cs, na⟩ := inst
  obtain ⟨g', l', c', kc', ks', ms', cs', na'⟩ := inst'
  simp only at hg hw hw' hs
  subst hg
  unfold tryDecipher
  simp only
  by_cases c1 : (withId f m).keyId.val.length > 0
  · simp only [if_pos c1]; simp
  simp only [if_neg c1]
  rcases filterText U (withId f m).plainText with _ | w
  · simp
  simp only
  by_cases c2 : w.length < g * 2
  · simp only [if_pos c2]; simp
  simp only [if_neg c2]
  rcases getKey_same (U := U) hw hw' hs (w.take g) with ⟨n1, n2⟩ | ⟨i, j, k, k', s1, s2, s3, s4, s6, s5⟩
  · simp only [n1, n2]; simp
  simp only [s1, s2]
  cases dry
  · simp only [Bool.false_eq_true, if_false, s3, s4]
    obtain ⟨a1, a2⟩ := decipher_same (U := U) (f := f) (inst := ⟨g, l, c, kc, ks, ms, cs, na + 1⟩)
      (inst' := ⟨g, l', c', kc', ks', ms', cs', na' + 1⟩) rfl hw hw' hs
      { withId f m with keyId := ⟨na, k.id.val⟩, cipherText := w.drop g }
    obtain ⟨b1, b2⟩ := decipher_keyPlace U f ⟨g, l', c', kc', ks', ms', cs', na' + 1⟩
      { withId f m with cipherText := w.drop g } na na' k.id.val
    simp only at a1 a2 b1 b2
    rw [← s6]
    generalize h1 : decipher U f ⟨g, l, c, kc, ks, ms, cs, na + 1⟩ _ = r1 at a1 a2 ⊢
    generalize h2 : decipher U f ⟨g, l', c', kc', ks', ms', cs', na' + 1⟩ _ = r2 at a1 a2 b1 b2
    generalize h3 : decipher U f ⟨g, l', c', kc', ks', ms', cs', na' + 1⟩ _ = r3 at b1 b2 ⊢
    obtain ⟨o1, i1, m1⟩ := r1
    obtain ⟨o2, i2, m2⟩ := r2
    obtain ⟨o3, i3, m3⟩ := r3
    have hk : m1.keyId.val = k.id.val := by
      have := decipher_keeps_keyId h1
      rw [this]
    simp only at a1 a2 b1 b2
    subst a1 a2 b1 b2
    rcases o3 with x | e | _
    · exact ⟨rfl, hk, rfl⟩
    · exact ⟨rfl, rfl, rfl⟩
    · exact ⟨rfl, rfl, rfl⟩
  · simp

/-- **C122**: which key is taken does not depend on the order in which the recipients are named, on repetitions, or on letter case. -/
def C122 (U : Unicode) : Prop :=
  ∀ (noise : Nat → Rune) (f : Runes) (inst : Inst) (m : Msg) (rs : List Runes), SameStations U m.recipients rs →
    let r := encipher U noise f inst m
    encipher U noise f inst { m with recipients := rs } = (r.1, r.2.1, { r.2.2 with recipients := rs })

/-- C122 for the order and for repetitions: all that is done depends only on the set of the recipients as they are written. -/
theorem C122_partial (U : Unicode) (noise : Nat → Rune) (f : Runes) (inst : Inst) (m : Msg) (rs : List Runes)
    (h : ∀ r, r ∈ m.recipients ↔ r ∈ rs) :
    let r := encipher U noise f inst m
    encipher U noise f inst { m with recipients := rs } = (r.1, r.2.1, { r.2.2 with recipients := rs }) := by
  intro r
  simp only [r]
  have he := encipherT_recipients (U := U) (noise := noise) (f := f) (inst := inst) (m := m) (rs' := rs) (fun keys => findKey_same h keys)
  unfold encipher
  rw [he]
  rcases encipherT U noise f inst m with ⟨o, i, m1⟩
  rcases o with _ | _ | _ <;> rfl

/-- C122 for recipients in capitals, as those of messages made from radiograms are: case is not in question then, and the lists may name the
same stations in any way. -/
theorem C122_capitals_partial (U : Unicode) (noise : Nat → Rune) (f : Runes) (inst : Inst) (m : Msg) (rs : List Runes)
    (h : SameStations U m.recipients rs) (h1 : ∀ r ∈ m.recipients, r.map U.toUpper = r) (h2 : ∀ r ∈ rs, r.map U.toUpper = r) :
    let r := encipher U noise f inst m
    encipher U noise f inst { m with recipients := rs } = (r.1, r.2.1, { r.2.2 with recipients := rs }) := by
  refine C122_partial U noise f inst m rs ?_
  intro r
  constructor
  · intro hr
    obtain ⟨b, hb, he⟩ := h.1 r hr
    unfold SameFold at he
    rw [h1 r hr, h2 b hb] at he
    exact he ▸ hb
  · intro hr
    obtain ⟨b, hb, he⟩ := h.2 r hr
    unfold SameFold at he
    rw [h2 r hr, h1 b hb] at he
    exact he ▸ hb

/-- a key kept by SM0X -/
def exKept : Inst := exInst [{ exKey 1 "A" "QWERTYUIOP" with keepers := [⟨2, lit "SM0X"⟩] }]

/-- C122 does not hold: `FindKey` minds case, so a message to sm0x finds no key though SM0X is a keeper. -/
theorem C122_violated : ¬ C122 unicode15 := by
  intro h
  have h1 := h (fun _ => 0) (lit "ID") exKept { exMsg "HI" with recipients := [lit "SM0X"] } [lit "sm0x"]
    ⟨by
      intro r hr
      rw [List.mem_singleton] at hr
      subst hr
      exact ⟨lit "sm0x", by simp, by unfold SameFold; decide +kernel⟩, by
      intro r hr
      rw [List.mem_singleton] at hr
      subst hr
      exact ⟨lit "SM0X", by simp, by unfold SameFold; decide +kernel⟩⟩
  have h2 := congrArg Prod.fst h1
  revert h2
  decide +kernel

/-- non-vacuity: two stores with the same keys in different order and with different marks -/
example : WellFormed ex2.keys ∧ WellFormed [{ exKey 7 "B" "ASDFGHJKLZ" with used := true }, exKey 8 "A" "QWERTYUIOP"] ∧
    SamePads ex2.keys [{ exKey 7 "B" "ASDFGHJKLZ" with used := true }, exKey 8 "A" "QWERTYUIOP"] := by
  refine ⟨by decide +kernel, by decide +kernel, ?_⟩
  intro id pad
  simp only [Holds, ex2, exInst, List.mem_cons, List.not_mem_nil, or_false, exists_eq_or_imp, exists_eq_left]
  exact Or.comm

/-- non-vacuity: two recipients in either order -/
example : (encipher unicode15 (fun _ => 0) (lit "ID") (exInst [{ exKey 1 "A" "QWERTYUIOP" with keepers := [⟨2, lit "SM0X"⟩, ⟨3, lit "SM0Y"⟩] }])
      { exMsg "HI" with recipients := [lit "SM0X", lit "SM0Y"] }).1 = .ok () ∧
    ∀ r, r ∈ [lit "SM0X", lit "SM0Y"] ↔ r ∈ [lit "SM0Y", lit "SM0X", lit "SM0Y"] := by
  refine ⟨by decide +kernel, ?_⟩
  intro r
  simp only [List.mem_cons, List.not_mem_nil, or_false]
  tauto

end K431
