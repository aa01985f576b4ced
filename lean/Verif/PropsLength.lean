import Verif.LengthLemmas
import Verif.AirLemmas
import Verif.PropsCipher

/-!
# How long a ciphertext gets, and how many keys it takes (C85)
-/

namespace K431
open Spec

/-- **C85**.  The ciphertext of a text is whole groups, has at least a letter for each character of the text, and is shorter than six letters and a group for each character, and a group.  This holds for any
message, also for one that comes with a key id. -/
theorem C85 {U : Unicode} (hU : U.Lawful) {noise : Nat → Rune} {f : Runes} {inst inst' : Inst} {m m' : Msg} (h : encipher U noise f inst m = (.ok (), inst', m')) :
    m'.cipherText.length % inst.groupSize = 0 ∧ m.plainText.length ≤ m'.cipherText.length ∧
      m'.cipherText.length < (inst.groupSize + 6) * m.plainText.length + inst.groupSize := by
  obtain ⟨chunks, hT⟩ := encipher_T h
  obtain ⟨inst1, m1, i, s, out, e⟩ := encipherT_ok hT
  obtain ⟨h1, h2, -, -⟩ := e.cipher_length
  obtain ⟨b1, b2, -⟩ := e.bounds hU (len := 0) (n := 4) ⟨fun _ _ _ => Nat.zero_le _, Nat.zero_le _⟩ (.inl rfl)
  refine ⟨h1, h2, ?_⟩
  have := Nat.mul_le_mul_right (inst.groupSize + 2) b1
  have e : (inst.groupSize + 6) * m.plainText.length = 4 * m.plainText.length + m.plainText.length * (inst.groupSize + 2) := by
    rw [Nat.add_mul, Nat.mul_add, Nat.mul_comm m.plainText.length inst.groupSize]; omega
  omega

/-- **C85** for a message without a key id, exactly: `spent` are the keys it takes.  Besides the letters of the text there are a group and two letters for each change of the key, and less than a group of
padding; there are no more changes of the key than characters; and if the keys that may be chosen have `len` letters or more, `len - groupSize - 2` of them are for the text, in all keys but
the last. -/
theorem C85_keys {U : Unicode} (hU : U.Lawful) {noise : Nat → Rune} {f : Runes} {inst inst' : Inst} {m m' : Msg} (hids : Distinguishable U inst.keys) (hauto : m.keyId.val = [])
    (h : encipher U noise f inst m = (.ok (), inst', m')) {spent : List Nat} (hspent : SpentKeys inst.keys inst'.keys spent) {n len : Nat} (hn : LettersEach m.plainText n)
    (hlen : ∀ k ∈ inst.keys, Selectable inst.groupSize m.recipients k → len ≤ k.runes.length) :
    ∃ changes, spent.length = changes + 1 ∧ changes ≤ m.plainText.length ∧
      m'.cipherText.length < n * m.plainText.length + changes * (inst.groupSize + 2) + inst.groupSize ∧
      changes * (len - inst.groupSize - 2) < n * m.plainText.length := by
  obtain ⟨chunks, hT⟩ := encipher_T h
  obtain ⟨inst1, m1, i, s, out, e⟩ := encipherT_ok hT
  obtain ⟨g1, k, hk, hel, -⟩ := e.auto_first hU hauto hids
  have hlong : LongKeys inst.groupSize m.recipients len ⟨inst1.keys, newState, [], ⟨[], i⟩⟩ := by
    rw [g1]
    refine ⟨longKeys_setUsed i hlen, ?_⟩
    simp only [keyLenAt_setUsed, keyLenAt_eq hk]
    exact hlen k (List.mem_of_getElem? hk) ((eligible_iff U _ _ k).1 hel)
  have hlength := e.spent_length hU hids hauto hspent
  obtain ⟨b1, b2, b3⟩ := e.bounds hU hlong hn
  have hpos : chunks.length ≠ 0 := by rw [e.hchunks]; simp
  exact ⟨chunks.length - 1, by omega, b1, b2, b3⟩

/-- not vacuous, and the bound is attained: `HEJ DU DIN` takes two keys of ten letters and 13 letters of ciphertext -/
example : (encipher unicode15 (fun _ => 0) [] ex2 (exMsg "HEJ DU DIN")).1 = .ok () ∧ (encipher unicode15 (fun _ => 0) [] ex2 (exMsg "HEJ DU DIN")).2.2.cipherText.length = 13 ∧
    LettersEach (exMsg "HEJ DU DIN").plainText 1 ∧ (∀ k ∈ ex2.keys, 10 ≤ k.runes.length) ∧ 13 < 1 * (exMsg "HEJ DU DIN").plainText.length + 1 * (ex2.groupSize + 2) + ex2.groupSize ∧
    ¬ 13 + 1 < 1 * (exMsg "HEJ DU DIN").plainText.length + 1 * (ex2.groupSize + 2) + ex2.groupSize :=
  ⟨by decide, by decide, .inr ⟨rfl, by decide⟩, by decide, by decide, by decide⟩

/-- the keys it takes -/
example : SpentKeys ex2.keys (encipher unicode15 (fun _ => 0) [] ex2 (exMsg "HEJ DU DIN")).2.1.keys [0, 1] := by
  refine ⟨by decide, fun j => ?_⟩
  match j with
  | 0 => exact ⟨fun _ => ⟨_, _, rfl, rfl, by decide, by decide⟩, fun _ => by decide⟩
  | 1 => exact ⟨fun _ => ⟨_, _, rfl, rfl, by decide, by decide⟩, fun _ => by decide⟩
  | n + 2 => exact ⟨fun h => by simp at h, fun ⟨k, _, hk, _⟩ => by
      have : ex2.keys[n + 2]? = none := List.getElem?_eq_none (by show 2 ≤ n + 2; omega)
      rw [this] at hk; cases hk⟩

/-- four letters for a character do occur: a small letter at the beginning -/
example : (encipher unicode15 (fun _ => 0) [] ex2 (exMsg "a")).1 = .ok () ∧ (encipher unicode15 (fun _ => 0) [] ex2 (exMsg "a")).2.2.cipherText.length = 4 := by decide

end K431
