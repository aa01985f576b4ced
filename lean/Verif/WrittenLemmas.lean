import Verif.SameLemmas

/-!
# Lemmas for whole radiograms that say the same
-/

namespace K431
open Spec

theorem withId_radiogram (f : Runes) (m : Msg) (g : Runes) : withId f { m with radiogram := g } = { withId f m with radiogram := g } := by
  unfold withId; split <;> rfl

/-- `Decipher` does not look at the radiogram. -/
theorem decipher_radiogram (U : Unicode) (f : Runes) (inst : Inst) (m : Msg) (g : Runes) :
    decipher U f inst { m with radiogram := g } = ((decipher U f inst m).1, (decipher U f inst m).2.1, { (decipher U f inst m).2.2 with radiogram := g }) := by
  unfold decipher
  simp only [withId_radiogram]
  repeat' split
  all_goals rfl

/-- Neither does `TryDecipherPlainText`. -/
theorem tryDecipher_radiogram (U : Unicode) (f : Runes) (dry : Bool) (inst : Inst) (m : Msg) (g : Runes) :
    tryDecipher U f dry inst { m with radiogram := g } = ((tryDecipher U f dry inst m).1, (tryDecipher U f dry inst m).2.1, { (tryDecipher U f dry inst m).2.2 with radiogram := g }) := by
  unfold tryDecipher
  simp only [withId_radiogram]
  split
  · rfl
  split
  · rfl
  split
  · rfl
  split
  · rfl
  split
  · rfl
  split
  · rfl
  rename_i w _ _ _ _ _ _ _ k _
  have := decipher_radiogram U f { inst with nextAddr := inst.nextAddr + 1 } { withId f m with keyId := ⟨inst.nextAddr, k.id.val⟩, cipherText := w.drop inst.groupSize } g
  simp only at this
  rw [this]
  generalize decipher U f _ _ = r
  obtain ⟨o, i, m⟩ := r
  cases o <;> rfl

/-- what is not read keeps its text and has no key -/
theorem tryDecipher_unread {U : Unicode} {f : Runes} {inst : Inst} {m : Msg} (hk : m.keyId = Sl.nil) (h : (tryDecipher U f false inst m).1 ≠ .ok ()) :
    (tryDecipher U f false inst m).2.2.plainText = m.plainText ∧ (tryDecipher U f false inst m).2.2.keyId = Sl.nil := by
  obtain ⟨w1, -, w3, -⟩ := withId_fields f m
  revert h
  unfold tryDecipher
  simp only [Bool.false_eq_true, if_false]
  split
  · intro _; exact ⟨w1, w3.trans hk⟩
  split
  · intro _; exact ⟨w1, w3.trans hk⟩
  split
  · intro _; exact ⟨w1, w3.trans hk⟩
  split
  · intro _; exact ⟨w1, w3.trans hk⟩
  split
  · intro _; exact ⟨w1, w3.trans hk⟩
  split
  · intro h; exact absurd rfl h
  · intro _; exact ⟨w1, rfl⟩
  · intro _; exact ⟨w1, rfl⟩

end K431
