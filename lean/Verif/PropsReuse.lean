import Verif.ReuseLemmas
import Verif.PropsSecrecy
import Verif.PropsForge

/-!
# C111: knowing one message and reading another
-/

namespace K431
open Spec

/-- **C111**, full statement: somebody who has everything on the air and knows the text of one message learns nothing about the text of another: it may as well have been any other text for which
the same key ids and lengths of ciphertext go on the air. -/
def C111_Statement : Prop :=
  ∀ (U : Unicode), U.Lawful → ∀ (noise : Nat → Rune) (f : Runes) (inst : Inst) (known m m' : Msg), Distinguishable U inst.keys →
    ∀ (pads : List Runes), pads ∈ PadsFor inst.keys → ∀ (sent sent' : List Msg),
    sendAll U noise f { inst with keys := withPads inst.keys pads } [known, m] = some sent →
    sendAll U noise f { inst with keys := withPads inst.keys pads } [known, m'] = some sent' →
    ∀ (air : List (Runes × Runes)), SameShape (onAir sent) air → SameShape (onAir sent') air → (∀ a ∈ air, ∀ c ∈ a.2, IsLetter c) →
    (Explains U noise f inst [known, m] air).ncard = (Explains U noise f inst [known, m'] air).ncard

/-- Two messages enciphered with the letters of one key, by one station or by two: whoever knows or guesses one text reads the other with `readOver`, as far as the known text reaches, and needs no pad for it.  This is so
whenever the key ids on the air name keys with the same letters, for texts of the first line of the legend that take one key. -/
theorem C111_reveals (U : Unicode) (hU : U.Lawful) (noise noise' : Nat → Rune) (f f' : Runes) (inst inst' i1 i2 : Inst) (m m' r r' : Msg)
    (henc : encipher U noise f inst m = (.ok (), i1, r)) (henc' : encipher U noise' f' inst' m' = (.ok (), i2, r'))
    (hsame : ∀ (i j : Nat) (k k' : Key), getKey U inst.keys r.keyId.val = some i → inst.keys[i]? = some k → getKey U inst'.keys r'.keyId.val = some j → inst'.keys[j]? = some k' → k.runes = k'.runes)
    (htext : ∀ c ∈ m.plainText, c ∈ firstTable) (htext' : ∀ c ∈ m'.plainText, c ∈ firstTable)
    (hone : ∀ k ∈ inst.keys, m.plainText.length + inst.groupSize + 2 ≤ k.runes.length) (hone' : ∀ k ∈ inst'.keys, m'.plainText.length + inst'.groupSize + 2 ≤ k.runes.length) :
    (readOver m.plainText r.cipherText r'.cipherText).take m'.plainText.length = m'.plainText.take m.plainText.length := by
  obtain ⟨i, k, n, h1, h2, h3⟩ := onePad_letters hU htext henc hone
  obtain ⟨j, k', n', h1', h2', h3'⟩ := onePad_letters hU htext' henc' hone'
  rw [← hsame i j k k' h1 h2 h1' h2'] at h3'
  exact readOver_enciphered htext' h3 h3'

/-- The same for two messages that a station sends one after the other and that go on the air with one key id: no letters of the keys explain what is on the air unless the second text is what `readOver` reads. -/
theorem C111_over (U : Unicode) (hU : U.Lawful) (noise : Nat → Rune) (f : Runes) (inst : Inst) (m m' : Msg) (sent : List Msg) (hsend : sendAll U noise f inst [m, m'] = some sent)
    (id z z' : Runes) (hair : onAir sent = [(id, z), (id, z')]) (htext : ∀ c ∈ m.plainText, c ∈ firstTable) (htext' : ∀ c ∈ m'.plainText, c ∈ firstTable)
    (hone : ∀ k ∈ inst.keys, max m.plainText.length m'.plainText.length + inst.groupSize + 2 ≤ k.runes.length) :
    (readOver m.plainText z z').take m'.plainText.length = m'.plainText.take m.plainText.length := by
  obtain ⟨i1, r, i2, r', h1, h2, rfl⟩ := sendAll_two hsend
  simp only [onAir, List.map_cons, List.map_nil, List.cons.injEq, Prod.mk.injEq, and_true] at hair
  obtain ⟨⟨hid, rfl⟩, hid', rfl⟩ := hair
  obtain ⟨hmat, hg⟩ := encipher_mat h1
  refine C111_reveals U hU noise noise f f inst i1 i1 i2 m m' r r' h1 h2 ?_ htext htext' (fun k hk => by have := hone k hk; omega) ?_
  · intro i j k k' a1 a2 a3 a4
    rw [getKey_congr U _ hmat.ids, hid', ← hid, a1] at a3
    cases a3
    obtain ⟨k2, b1, b2⟩ := hmat.symm.get a2
    rw [a4] at b1
    cases b1
    exact Key.mat_runes b2 ▸ rfl
  · intro k hk
    obtain ⟨j, hj⟩ := List.mem_iff_getElem?.1 hk
    obtain ⟨k2, b1, b2⟩ := hmat.get hj
    have := hone k2 (List.mem_of_getElem? b1)
    rw [Key.mat_runes b2] at this
    rw [hg]
    omega

/-- a message for which the operator has named key A -/
def exNamed (text : String) : Msg := { exMsg text with keyId := ⟨1, lit "A"⟩ }

/-- not vacuous: the station names key A for two messages; whoever knows that the first is "HEJ DU" reads the second -/
example : ∃ i1 i2 r r', encipher unicode15 (fun _ => 0) [] ex2 (exNamed "HEJ DU") = (.ok (), i1, r) ∧ encipher unicode15 (fun _ => 0) [] i1 (exNamed "GO") = (.ok (), i2, r') ∧
    r.keyId.val = lit "A" ∧ r'.keyId.val = lit "A" ∧ (∀ k ∈ ex2.keys, 6 + ex2.groupSize + 2 ≤ k.runes.length) ∧
    (readOver (lit "HEJ DU") r.cipherText r'.cipherText).take 2 = lit "GO" :=
  ⟨_, _, _, _, rfl, rfl, by decide, by decide, by decide, by decide⟩

/-- The statement is false: an operator who names key A for two messages sends both with the same letters.  To whoever knows that the first is "HEJ", the second can be "GO" but not "NO". -/
theorem C111_violated : ¬ C111_Statement := by
  intro h
  have hp : [lit "QWERTYUIOP", lit "ASDFGHJKLZ"] ∈ PadsFor ex2.keys := .cons ⟨rfl, by decide⟩ (.cons ⟨rfl, by decide⟩ .nil)
  have hgo : sendAll unicode15 (fun _ => 0) [] { ex2 with keys := withPads ex2.keys [lit "QWERTYUIOP", lit "ASDFGHJKLZ"] } [exNamed "HEJ", exNamed "GO"] = some _ := rfl
  have hno : sendAll unicode15 (fun _ => 0) [] { ex2 with keys := withPads ex2.keys [lit "QWERTYUIOP", lit "ASDFGHJKLZ"] } [exNamed "HEJ", exNamed "NO"] = some _ := rfl
  have h1 := h unicode15 unicode15_lawful (fun _ => 0) [] ex2 (exNamed "HEJ") (exNamed "GO") (exNamed "NO") (by decide) _ hp _ _ hgo hno
    [(lit "A", lit "CZM"), (lit "A", lit "DP")] (.cons (by decide) (.cons (by decide) .nil)) (.cons (by decide) (.cons (by decide) .nil)) (by decide)
  have hno0 : Explains unicode15 (fun _ => 0) [] ex2 [exNamed "HEJ", exNamed "NO"] [(lit "A", lit "CZM"), (lit "A", lit "DP")] = ∅ := by
    refine Set.eq_empty_iff_forall_notMem.2 ?_
    rintro q ⟨hq, s, hs, ha⟩
    have := C111_over unicode15 unicode15_lawful (fun _ => 0) [] _ (exNamed "HEJ") (exNamed "NO") s hs (lit "A") (lit "CZM") (lit "DP") ha (by decide) (by decide) ?_
    · exact absurd this (by decide)
    · intro k hk
      obtain ⟨l, hl, -, hlen⟩ := forall₂_mem_left (PadsFor.sameFace hq).1.symm k hk
      have : ∀ l ∈ ex2.keys, l.runes.length = 10 := by decide
      rw [← hlen, this l hl]
      exact (by decide : 3 + 1 + 2 ≤ 10)
  rw [hno0, Set.ncard_empty, Set.ncard_eq_zero ((padsFor_finite ex2.keys).subset (fun _ hx => hx.1))] at h1
  have : [lit "QWERTYUIOP", lit "ASDFGHJKLZ"] ∈ Explains unicode15 (fun _ => 0) [] ex2 [exNamed "HEJ", exNamed "GO"] [(lit "A", lit "CZM"), (lit "A", lit "DP")] :=
    ⟨hp, _, hgo, by decide⟩
  rw [h1] at this
  exact this

/-- **C111**, what holds: if the program chooses the keys, then knowing one message, or any others, says nothing about the rest.  Missing: messages for which the operator names the key. -/
theorem C111_partial (U : Unicode) (hU : U.Lawful) (noise : Nat → Rune) (f : Runes) (inst : Inst) (known : List Msg) (m m' : Msg)
    (hauto : ∀ x ∈ m :: m' :: known, x.keyId.val = []) (hd : Distinguishable U inst.keys)
    (pads : List Runes) (hp : pads ∈ PadsFor inst.keys) (sent sent' : List Msg)
    (h : sendAll U noise f { inst with keys := withPads inst.keys pads } (known ++ [m]) = some sent)
    (h' : sendAll U noise f { inst with keys := withPads inst.keys pads } (known ++ [m']) = some sent')
    (air : List (Runes × Runes)) (hs : SameShape (onAir sent) air) (hs' : SameShape (onAir sent') air) (hl : ∀ a ∈ air, ∀ c ∈ a.2, IsLetter c) :
    (Explains U noise f inst (known ++ [m]) air).ncard = (Explains U noise f inst (known ++ [m']) air).ncard :=
  C72_texts U hU noise f inst _ _ (fun x hx => hauto x (by simp at hx ⊢; tauto)) (fun x hx => hauto x (by simp at hx ⊢; tauto)) hd pads hp sent sent' h h' air hs hs' hl

/-- not vacuous: the program chooses keys for "HEJ" and then for "DU" or "JA"; the ciphertexts of the second message are those of key B -/
example : Distinguishable unicode15 ex2.keys ∧ [lit "QWERTYUIOP", lit "ASDFGHJKLZ"] ∈ PadsFor ex2.keys ∧ (∀ x ∈ [exMsg "DU", exMsg "JA", exMsg "HEJ"], x.keyId.val = []) ∧
    (sendAll unicode15 (fun _ => 0) [] ex2 ([exMsg "HEJ"] ++ [exMsg "DU"])).map onAir = some [(lit "A", lit "CZM"), (lit "B", lit "WN")] ∧
    (sendAll unicode15 (fun _ => 0) [] ex2 ([exMsg "HEJ"] ++ [exMsg "JA"])).map onAir = some [(lit "A", lit "CZM"), (lit "B", lit "QH")] := by
  refine ⟨by decide, ?_, by decide, by decide +kernel, by decide +kernel⟩
  exact .cons ⟨rfl, by decide⟩ (.cons ⟨rfl, by decide⟩ .nil)

end K431
