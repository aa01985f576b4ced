import Verif.PropsLegend

/-!
# C116: a failed Decipher leaves the message as it was
-/

namespace K431
open Spec

/-- **C116**, full statement: if `Decipher` fails on a message that has an id, message and instance are as before. -/
def C116_Statement : Prop :=
  ∀ (U : Unicode), U.Lawful → ∀ (f : Runes) (inst inst' : Inst) (m m' : Msg) (o : Outcome Unit), m.id ≠ [] →
    decipher U f inst m = (o, inst', m') → o ≠ .ok () → inst' = inst ∧ m' = m

/-- a message with a text, and a ciphertext that can not be read beyond its second letter -/
def exUnreadable : Msg := { exMsg "HEJ" with id := lit "AAAA", keyId := ⟨1, lit "A"⟩, cipherText := lit "IEZA" }

/-- The statement is false: the text is overwritten before anything is deciphered. -/
theorem C116_violated : ¬ C116_Statement := by
  intro h
  have := (h unicode15 unicode15_lawful [] ex2 _ exUnreadable _ _ (by decide) rfl (by decide)).2
  revert this
  decide

/-- what happened -/
example : exUnreadable.plainText = lit "HEJ" ∧ (decipher unicode15 [] ex2 exUnreadable).1 = .err .binaryMode ∧
    (decipher unicode15 [] ex2 exUnreadable).2.2.plainText = lit "B" := by decide

/-- **C116** (partial; missing: the text, if the key is found): a failed `Decipher` changes nothing in the instance, and of the
message nothing but the text and a missing id.  The text too stays if the key id has not the length of a group, the ciphertext is shorter
than a group, or there is no such key.  Otherwise the text is that of the longest beginning of the ciphertext that is
readable by hand. -/
theorem C116_partial (U : Unicode) (hU : U.Lawful) (f : Runes) (inst inst' : Inst) (m m' : Msg) (o : Outcome Unit) (hw : WellFormed inst.keys)
    (hg : inst.groupSize ≠ 0) (h : decipher U f inst m = (o, inst', m')) (hf : o ≠ .ok ()) :
    inst' = inst ∧ m' = { withId f m with plainText := m'.plainText } ∧
    ((m.keyId.val.length ≠ inst.groupSize ∨ m.cipherText.length < inst.groupSize ∨ ∀ k ∈ inst.keys, ¬ IdOf U m.keyId.val k) → m'.plainText = m.plainText) ∧
    (m.keyId.val.length = inst.groupSize → inst.groupSize ≤ m.cipherText.length → ∀ k ∈ inst.keys, IdOf U m.keyId.val k →
      ∃ a z b ids, m.cipherText = a ++ z :: b ∧ ByHand inst.groupSize inst.keys (Reader.fresh k.runes) a m'.plainText ids ∧
        ∀ text ids', ¬ ByHand inst.groupSize inst.keys (Reader.fresh k.runes) (a ++ [z]) text ids') := by
  have hw1 : (withId f m).keyId = m.keyId ∧ (withId f m).cipherText = m.cipherText ∧ (withId f m).plainText = m.plainText := by
    unfold withId; split <;> exact ⟨rfl, rfl, rfl⟩
  obtain ⟨hi, hm, _⟩ := decipher_fail h
  refine ⟨hi hf, hm, ?_, ?_⟩
  · intro hc
    unfold decipher at h
    simp only [hw1.1, hw1.2.1] at h
    by_cases h1 : m.keyId.val.length ≠ inst.groupSize
    · rw [if_pos h1] at h
      simp only [Prod.mk.injEq] at h
      rw [← h.2.2]; exact hw1.2.2
    · rw [if_neg h1] at h
      by_cases h2 : m.cipherText.length < inst.groupSize
      · rw [if_pos h2] at h
        simp only [Prod.mk.injEq] at h
        rw [← h.2.2]; exact hw1.2.2
      · rw [if_neg h2] at h
        have hno := (hc.resolve_left h1).resolve_left h2
        rcases hk : getKey U inst.keys m.keyId.val with _ | i
        · rw [hk] at h
          simp only [Prod.mk.injEq] at h
          rw [← h.2.2]; exact hw1.2.2
        · obtain ⟨k, h3, h4, -⟩ := getKey_some hk
          have hmem := List.mem_of_getElem? h3
          rw [goStr_letters (hw.letters k hmem)] at h4
          exact absurd h4.symm (hno k hmem)
  · intro h1 h2 k hk hid
    exact ((C86 hU hw hg hk hid h1 h2 h).2.2 hf).2

/-- not vacuous -/
example : WellFormed ex2.keys ∧ (decipher unicode15 [] ex2 exUnreadable).1 ≠ .ok () ∧
    (decipher unicode15 [] ex2 { exUnreadable with keyId := ⟨9, lit "C"⟩ }).1 = .err .keyNotFound := by decide

/-- Whatever the text was, it is gone: if the key is found, nothing afterwards depends on it. -/
theorem C116_lost (U : Unicode) (f : Runes) (inst : Inst) (m : Msg) (text : Runes) (i : Nat) (hkl : m.keyId.val.length = inst.groupSize)
    (hl : inst.groupSize ≤ m.cipherText.length) (hk : getKey U inst.keys m.keyId.val = some i) :
    decipher U f inst { m with plainText := text } = decipher U f inst m := by
  have hw1 : (withId f m).keyId = m.keyId ∧ (withId f m).cipherText = m.cipherText := by
    unfold withId; split <;> exact ⟨rfl, rfl⟩
  have hw2 : withId f { m with plainText := text } = { withId f m with plainText := text } := by
    unfold withId; simp only; split <;> rfl
  unfold decipher
  simp only [hw2, hw1.1, hw1.2]
  rw [if_neg (by omega), if_neg (by omega), hk, if_neg (by omega), if_neg (by omega)]

example : getKey unicode15 ex2.keys exUnreadable.keyId.val = some 0 ∧
    decipher unicode15 [] ex2 { exUnreadable with plainText := lit "NEJ" } = decipher unicode15 [] ex2 exUnreadable := by decide

end K431
