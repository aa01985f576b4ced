import Verif.SpecCipher
import Verif.Codec
import Verif.BasicLemmas

/-! # Helper lemmas about the coder -/

namespace K431
open Spec

/-- three rounds are enough for the table loop, from every state -/
theorem gotoLoop_fuel (t : Nat) (ht : t < 2) (st : CState) (out : Option Runes) :
    (gotoLoop t 3 st out).isSome := by
  simp only [gotoLoop, nextTable, characterTables, List.length_cons, List.length_nil]
  split
  · rfl
  · rcases out with _ | o <;> (simp; repeat' split) <;> first | rfl | omega

theorem gotoTable_some (t : Nat) (ht : t < 2) (st : CState) (hst : st.table < 2) (o : Runes) :
    gotoTable t st (some o) = .ok (if st.table = t then (st, some o)
      else ({ st with table := t, charCounter := st.charCounter + 1 }, some (o ++ [90]))) := by
  obtain ⟨tb, cc, g, k, s, b⟩ := st
  simp only at hst
  have h1 : t = 0 ∨ t = 1 := by omega
  have h2 : tb = 0 ∨ tb = 1 := by omega
  rcases h1 with rfl | rfl <;> rcases h2 with rfl | rfl <;>
    simp [gotoTable, gotoLoop, nextTable, characterTables, nextTableChar]

/-- letters written to switch from table `a` to table `b` -/
def sw (a b : Nat) : Runes := if a = b then [] else [90]

/-- does `c` need a case toggle when the case lock is `s`? -/
def needsToggle (U : Unicode) (s : Bool) (c : Rune) : Bool :=
  (U.isUpper c && s) || (U.isLower c && !s)

/-- the letters written for one character found at table `t`, column `i` -/
def word (U : Unicode) (tb : Nat) (s : Bool) (c : Rune) (t i : Nat) : Runes :=
  if needsToggle U s c then sw tb 1 ++ [88] ++ sw 1 t ++ [(i : Int) + 65]
  else sw tb t ++ [(i : Int) + 65]

theorem findInTable_lt (c : Rune) : ∀ (tab : Runes) (n i : Nat), findInTable c n tab = some i →
    n ≤ i ∧ tab[i - n]? = some c ∧ c ≠ specialOpChar := by
  intro tab
  induction tab with
  | nil => intro n i h; simp [findInTable] at h
  | cons x xs ih =>
    intro n i h
    simp only [findInTable] at h
    by_cases hx : x = specialOpChar
    · rw [if_pos hx] at h
      obtain ⟨h1, h2, h3⟩ := ih _ _ h
      refine ⟨by omega, ?_, h3⟩
      have : i - n = (i - (n + 1)) + 1 := by omega
      rw [this]; simpa using h2
    · rw [if_neg hx] at h
      by_cases hc : c = x
      · rw [if_pos hc] at h
        cases h
        subst hc
        exact ⟨Nat.le_refl _, by simp, hx⟩
      · rw [if_neg hc] at h
        obtain ⟨h1, h2, h3⟩ := ih _ _ h
        refine ⟨by omega, ?_, h3⟩
        have : i - n = (i - (n + 1)) + 1 := by omega
        rw [this]; simpa using h2

theorem findInTables_spec (c : Rune) (t i : Nat)
    (h : findInTables c 0 characterTables = some (t, i)) :
    (t = 0 ∧ characterTablePrimary[i]? = some c ∨ t = 1 ∧ characterTableSecondary[i]? = some c) ∧
      i < 26 ∧ c ≠ specialOpChar := by
  simp only [findInTables, characterTables] at h
  rcases h0 : findInTable c 0 characterTablePrimary with _ | j
  · rw [h0] at h
    rcases h1 : findInTable c 0 characterTableSecondary with _ | j
    · rw [h1] at h; simp at h
    · rw [h1] at h
      simp at h
      obtain ⟨rfl, rfl⟩ := h
      have := findInTable_lt _ _ _ _ h1
      have hlt : j < characterTableSecondary.length := by
        have := this.2.1; simp at this
        exact (List.getElem?_eq_some_iff.1 this).1
      exact ⟨Or.inr ⟨rfl, by simpa using this.2.1⟩, by simpa [characterTableSecondary] using hlt, this.2.2⟩
  · rw [h0] at h
    simp at h
    obtain ⟨rfl, rfl⟩ := h
    have := findInTable_lt _ _ _ _ h0
    have hlt : j < characterTablePrimary.length := by
      have := this.2.1; simp at this
      exact (List.getElem?_eq_some_iff.1 this).1
    exact ⟨Or.inl ⟨rfl, by simpa using this.2.1⟩, by simpa [characterTablePrimary] using hlt, this.2.2⟩

/-- closed form of `encodeCharacter` outside binary mode -/
theorem encodeCharacter_eq (U : Unicode) (st : CState) (hb : st.binary = false)
    (htab : st.table < 2) (c : Rune) (out : Runes) :
    encodeCharacter U st c out =
      match findInTables (U.toUpper c) 0 characterTables with
      | none => .panic
      | some (t, i) =>
        .ok ({ st with
                table := t
                shift := if needsToggle U st.shift c then !st.shift else st.shift
                charCounter := st.charCounter + (word U st.table st.shift c t i).length },
            out ++ word U st.table st.shift c t i) := by
  unfold encodeCharacter
  rw [hb]
  simp only [Bool.false_eq_true, if_false]
  rw [show ((U.isUpper c && st.shift) || (U.isLower c && !st.shift)) = needsToggle U st.shift c from rfl]
  rcases hf : findInTables (U.toUpper c) 0 characterTables with _ | ⟨t, i⟩
  · by_cases hn : needsToggle U st.shift c = true
    · rw [if_pos hn]
      simp only [toggleCase, secondaryTable]
      rw [gotoTable_some 1 (by decide) st htab out]
      by_cases h1 : st.table = 1 <;> simp [h1]
    · rw [if_neg hn]
  · have ht : t < 2 := by have := (findInTables_spec _ _ _ hf).1; omega
    obtain ⟨tb, cc, g, k, s, b⟩ := st
    simp only at htab hb
    subst hb
    have h2 : tb = 0 ∨ tb = 1 := by omega
    have h1 : t = 0 ∨ t = 1 := by omega
    simp only
    by_cases hn : needsToggle U s c = true
    · rw [if_pos hn]
      simp only [toggleCase, secondaryTable, caseToggleChar]
      rw [gotoTable_some 1 (by decide) _ htab out]
      rcases h1 with rfl | rfl <;> rcases h2 with rfl | rfl <;>
        simp [gotoTable_some, word, hn, sw]
    · rw [if_neg hn]
      simp only [Bool.not_eq_true] at hn
      rcases h1 with rfl | rfl <;> rcases h2 with rfl | rfl <;>
        simp [gotoTable_some, word, hn, sw]

theorem canon_of_alphabet : ∀ c ∈ alphabet, canon c = c := by decide

theorem table_mem (t i : Nat) (c : Rune)
    (h : t = 0 ∧ characterTablePrimary[i]? = some c ∨ t = 1 ∧ characterTableSecondary[i]? = some c)
    (hc : c ≠ specialOpChar) : c ∈ capitals ++ neutrals := by
  have h1 : ∀ x ∈ characterTablePrimary ++ characterTableSecondary, x ≠ specialOpChar →
      x ∈ capitals ++ neutrals := by decide
  refine h1 c ?_ hc
  rcases h with ⟨_, h⟩ | ⟨_, h⟩
  · exact List.mem_append_left _ (List.mem_of_getElem? h)
  · exact List.mem_append_right _ (List.mem_of_getElem? h)

/-- every supported character is found -/
theorem findInTables_of_alphabet (U : Unicode) (hU : U.Lawful) (c : Rune) (hc : c ∈ alphabet) :
    ∃ t i, findInTables (U.toUpper c) 0 characterTables = some (t, i) := by
  have h1 : ∀ x ∈ capitals ++ neutrals, (findInTables x 0 characterTables).isSome = true := by decide
  have h2 : U.toUpper c ∈ capitals ++ neutrals := by
    unfold alphabet at hc
    simp only [List.mem_append] at hc ⊢
    rcases hc with (hc | hc) | hc
    · rw [(hU.capital c hc).2.2.1]; exact Or.inl hc
    · rw [(hU.small c hc).2.2.1]
      have : ∀ x ∈ smalls, x - 32 ∈ capitals := by decide
      exact Or.inl (this c hc)
    · rw [(hU.neutral c hc).2.2.1]; exact Or.inr hc
  have := h1 _ h2
  rcases h : findInTables (U.toUpper c) 0 characterTables with _ | ⟨t, i⟩
  · rw [h] at this; cases this
  · exact ⟨t, i, rfl⟩

/-- conversely only supported characters and the two special runes are found -/
theorem alphabet_of_findInTables (U : Unicode) (hU : U.Lawful) (c : Rune) (t i : Nat)
    (h : findInTables (U.toUpper c) 0 characterTables = some (t, i)) :
    c ∈ alphabet ∨ c = dotlessI ∨ c = longS := by
  obtain ⟨h1, _, h3⟩ := findInTables_spec _ _ _ h
  exact hU.preimage c (table_mem t i _ h1 h3)

theorem decoded_char (U : Unicode) (hU : U.Lawful) (c : Rune) (s : Bool)
    (h : U.toUpper c ∈ capitals ++ neutrals) :
    (if (if needsToggle U s c then !s else s) && (U.toUpper c != spaceChar) then
      U.toLower (U.toUpper c) else U.toUpper c) = canon c := by
  have hcap : ∀ x ∈ capitals, x ≠ 32 ∧ canon x = x := by decide
  have hsm : ∀ x ∈ smalls, x - 32 ∈ capitals ∧ x - 32 ≠ 32 ∧ canon x = x := by decide
  have hne : ∀ x ∈ neutrals, canon x = x := by decide
  rcases hU.preimage c h with hc | hc | hc
  · unfold alphabet at hc
    simp only [List.mem_append] at hc
    rcases hc with (hc | hc) | hc
    · obtain ⟨h1, h2, h3, h4⟩ := hU.capital c hc
      rw [(hcap c hc).2]
      cases s <;> simp [needsToggle, h1, h2, h3]
    · obtain ⟨h1, h2, h3, h4⟩ := hU.small c hc
      obtain ⟨h5, h6, h7⟩ := hsm c hc
      have h8 := (hU.capital _ h5).2.2.2
      rw [h7]
      cases s <;> simp [needsToggle, h1, h2, h3, spaceChar, h6, h8]
    · obtain ⟨h1, h2, h3, h4⟩ := hU.neutral c hc
      rw [hne c hc]
      cases s <;> simp [needsToggle, h1, h2, h3, h4]
  · subst hc
    obtain ⟨h1, h2, h3⟩ := hU.dotlessI
    have h4 := (hU.capital 73 (by decide)).2.2.2
    cases s <;> simp [needsToggle, h1, h2, h3, h4, spaceChar] <;> decide
  · subst hc
    obtain ⟨h1, h2, h3⟩ := hU.longS
    have h4 := (hU.capital 83 (by decide)).2.2.2
    cases s <;> simp [needsToggle, h1, h2, h3, h4, spaceChar] <;> decide

theorem decodeAll_append (U : Unicode) (xs ys : Runes) : ∀ (st : CState) (out : Runes),
    decodeAll U st (xs ++ ys) out =
      match decodeAll U st xs out with
      | .ok (st, out) => decodeAll U st ys out
      | .err e => .err e
      | .panic => .panic := by
  induction xs with
  | nil => intro st out; rfl
  | cons x xs ih =>
    intro st out
    simp only [List.cons_append, decodeAll]
    rcases decodeCharacter U st x out with ⟨st', out'⟩ | e | _
    · exact ih st' out'
    · rfl
    · rfl

/-- a decoder state between characters, outside binary mode and key change -/
structure Plain (st : CState) : Prop where
  tab : st.table < 2
  g : st.gotChangeKeyChar = false
  k : st.keyChange = false
  b : st.binary = false

theorem plain_new : Plain newState := ⟨by decide, rfl, rfl, rfl⟩

theorem decode_switch (U : Unicode) (st : CState) (h : Plain st) (out : Runes) :
    decodeCharacter U st 90 out = .ok ({ st with table := 1 - st.table }, out) := by
  obtain ⟨tb, cc, g, k, s, b⟩ := st
  obtain ⟨h1, h2, h3, h4⟩ := h
  simp only at h1 h2 h3 h4
  subst h2 h3 h4
  have : tb = 0 ∨ tb = 1 := by omega
  rcases this with rfl | rfl
  · rfl
  · simp [decodeCharacter, characterTables, characterTableSecondary, specialOpChar, primaryTable,
      secondaryTable, binaryToggleChar, caseToggleChar, changeKeyChar, nextTableChar, nextTable]

theorem decode_case (U : Unicode) (st : CState) (h : Plain st) (ht : st.table = 1) (out : Runes) :
    decodeCharacter U st 88 out = .ok ({ st with shift := !st.shift }, out) := by
  obtain ⟨tb, cc, g, k, s, b⟩ := st
  obtain ⟨h1, h2, h3, h4⟩ := h
  simp only at h1 h2 h3 h4 ht
  subst h2 h3 h4 ht
  rfl

theorem decode_changeKey (U : Unicode) (st : CState) (h : Plain st) (ht : st.table = 1) (out : Runes) :
    decodeCharacter U st 89 out = .ok ({ st with gotChangeKeyChar := true }, out) := by
  obtain ⟨tb, cc, g, k, s, b⟩ := st
  obtain ⟨h1, h2, h3, h4⟩ := h
  simp only at h1 h2 h3 h4 ht
  subst h2 h3 h4 ht
  rfl

theorem decode_char (U : Unicode) (st : CState) (h : Plain st) (t i : Nat) (c : Rune) (out : Runes)
    (ht : st.table = t)
    (hc : t = 0 ∧ characterTablePrimary[i]? = some c ∨ t = 1 ∧ characterTableSecondary[i]? = some c)
    (hi : i < 26) (hs : c ≠ specialOpChar) :
    decodeCharacter U st ((i : Int) + 65) out =
      .ok ({ st with charCounter := st.charCounter + 1 },
        out ++ [if st.shift && (c != spaceChar) then U.toLower c else c]) := by
  obtain ⟨tb, cc, g, k, s, b⟩ := st
  obtain ⟨h1, h2, h3, h4⟩ := h
  simp only at h1 h2 h3 h4 ht
  subst h2 h3 h4 ht
  have e1 : ¬ ((i : Int) + 65 < 65 ∨ (i : Int) + 65 > 90) := by omega
  have e2 : ((i : Int) + 65 - 65).toNat = i := by omega
  rcases hc with ⟨rfl, hc⟩ | ⟨rfl, hc⟩
  · have e3 : ¬ (i ≥ characterTablePrimary.length) := by
      have := (List.getElem?_eq_some_iff.1 hc).1; omega
    simp only [decodeCharacter, if_neg e1, e2, Bool.false_eq_true, if_false]
    simp [characterTables, e3, hc, hs]
  · have e3 : ¬ (i ≥ characterTableSecondary.length) := by
      have := (List.getElem?_eq_some_iff.1 hc).1; omega
    simp only [decodeCharacter, if_neg e1, e2, Bool.false_eq_true, if_false]
    simp [characterTables, e3, hc, hs]

/-- decoding the letters written for one character -/
theorem decode_word (U : Unicode) (hU : U.Lawful) (st : CState) (h : Plain st) (c : Rune) (t i : Nat)
    (out : Runes) (hf : findInTables (U.toUpper c) 0 characterTables = some (t, i)) :
    decodeAll U st (word U st.table st.shift c t i) out =
      .ok ({ st with
              table := t
              shift := if needsToggle U st.shift c then !st.shift else st.shift
              charCounter := st.charCounter + 1 }, out ++ [canon c]) := by
  obtain ⟨hc, hi, hs⟩ := findInTables_spec _ _ _ hf
  have hd := fun s => decoded_char U hU c s (table_mem t i _ hc hs)
  have ht : t = 0 ∨ t = 1 := by omega
  have htb : st.table = 0 ∨ st.table = 1 := by have := h.tab; omega
  -- final letter from any plain state on table t
  have fin : ∀ st' : CState, Plain st' → st'.table = t →
      st'.shift = (if needsToggle U st.shift c then !st.shift else st.shift) →
      decodeAll U st' [(i : Int) + 65] out =
        .ok ({ st' with charCounter := st'.charCounter + 1 }, out ++ [canon c]) := by
    intro st' hp htt hsh
    simp only [decodeAll]
    rw [decode_char U st' hp t i (U.toUpper c) out htt hc hi hs, hsh, hd]
  have switch : ∀ (st' : CState) (b : Nat), Plain st' → b < 2 →
      decodeAll U st' (sw st'.table b) out = .ok ({ st' with table := b }, out) := by
    intro st' b hp hb
    unfold sw
    split
    · rename_i he; subst he; rfl
    · rename_i hne
      simp only [decodeAll]
      rw [decode_switch U st' hp]
      have := hp.tab
      have e : 1 - st'.table = b := by omega
      simp only [e]
  have ht2 : t < 2 := by omega
  unfold word
  by_cases hn : needsToggle U st.shift c = true
  · rw [if_pos hn]
    simp only [List.append_assoc]
    rw [decodeAll_append, switch st 1 h (by omega)]
    simp only []
    rw [decodeAll_append]
    have hp1 : Plain { st with table := 1 } := ⟨by simp, h.g, h.k, h.b⟩
    simp only [decodeAll]
    rw [decode_case U _ hp1 rfl]
    simp only []
    rw [decodeAll_append]
    have hp2 : Plain { st with table := 1, shift := !st.shift } := ⟨by simp, h.g, h.k, h.b⟩
    have := switch { st with table := 1, shift := !st.shift } t hp2 ht2
    simp only [] at this
    rw [this]
    simp only []
    have hp3 : Plain { st with table := t, shift := !st.shift } := ⟨ht2, h.g, h.k, h.b⟩
    have := fin { st with table := t, shift := !st.shift } hp3 rfl (by simp [hn])
    rw [this]
    simp [hn]
  · rw [if_neg hn]
    rw [decodeAll_append, switch st t h ht2]
    simp only []
    have hp3 : Plain { st with table := t } := ⟨ht2, h.g, h.k, h.b⟩
    rw [fin { st with table := t } hp3 rfl (by simp [hn])]
    simp [hn]

theorem sw_letters (a b : Nat) : ∀ x ∈ sw a b, IsLetter x := by
  unfold sw; split <;> simp [IsLetter]

theorem sw_length (a b : Nat) : (sw a b).length ≤ 1 := by
  unfold sw; split <;> simp

theorem word_letters (U : Unicode) (tb : Nat) (s : Bool) (c : Rune) (t i : Nat) (hi : i < 26) :
    ∀ x ∈ word U tb s c t i, IsLetter x := by
  intro x hx
  unfold word at hx
  split at hx <;> simp only [List.mem_append, List.mem_singleton] at hx
  · rcases hx with ((hx | hx) | hx) | hx
    · exact sw_letters _ _ x hx
    · subst hx; decide
    · exact sw_letters _ _ x hx
    · subst hx; unfold IsLetter; omega
  · rcases hx with hx | hx
    · exact sw_letters _ _ x hx
    · subst hx; unfold IsLetter; omega

theorem word_length (U : Unicode) (tb : Nat) (s : Bool) (c : Rune) (t i : Nat) :
    1 ≤ (word U tb s c t i).length ∧ (word U tb s c t i).length ≤ 4 := by
  unfold word
  have h1 := sw_length tb 1
  have h2 := sw_length 1 t
  have h3 := sw_length tb t
  split <;> simp only [List.length_append, List.length_singleton] <;> omega

/-- general form: from corresponding states, on any text the coder accepts -/
theorem encode_decode_general (U : Unicode) (hU : U.Lawful) (text : Runes) :
    ∀ (st dst : CState) (coded : Runes) (st' : CState) (plain : Runes),
      Plain st → Plain dst → st.table = dst.table → st.shift = dst.shift →
      encodeAll U st text [] = .ok (st', coded) →
      ∃ dst', decodeAll U dst coded plain = .ok (dst', plain ++ text.map canon) ∧ Plain dst' ∧
        st'.table = dst'.table ∧ st'.shift = dst'.shift ∧ Plain st' := by
  suffices H : ∀ (text : Runes) (st dst : CState) (pre coded : Runes) (st' : CState) (plain : Runes),
      Plain st → Plain dst → st.table = dst.table → st.shift = dst.shift →
      encodeAll U st text pre = .ok (st', coded) →
      ∃ w dst', coded = pre ++ w ∧ decodeAll U dst w plain = .ok (dst', plain ++ text.map canon) ∧
        Plain dst' ∧ st'.table = dst'.table ∧ st'.shift = dst'.shift ∧ Plain st' by
    intro st dst coded st' plain h1 h2 h3 h4 h5
    obtain ⟨w, dst', hw, hd⟩ := H text st dst [] coded st' plain h1 h2 h3 h4 h5
    simp only [List.nil_append] at hw
    subst hw
    exact ⟨dst', hd⟩
  clear text
  intro text
  induction text with
  | nil =>
    intro st dst pre coded st' plain h1 h2 h3 h4 h5
    simp only [encodeAll, Outcome.ok.injEq, Prod.mk.injEq] at h5
    obtain ⟨rfl, rfl⟩ := h5
    exact ⟨[], dst, by simp, by simp [decodeAll], h2, h3, h4, h1⟩
  | cons c cs ih =>
    intro st dst pre coded st' plain h1 h2 h3 h4 h5
    simp only [encodeAll] at h5
    rw [encodeCharacter_eq U st h1.b h1.tab] at h5
    rcases hf : findInTables (U.toUpper c) 0 characterTables with _ | ⟨t, i⟩
    · rw [hf] at h5; cases h5
    · rw [hf] at h5
      simp only at h5
      have ht2 : t < 2 := by have := (findInTables_spec _ _ _ hf).1; omega
      have hdw := decode_word U hU dst h2 c t i plain hf
      rw [← h3, ← h4] at hdw
      obtain ⟨w, dst', hw, hd⟩ := ih { st with
              table := t
              shift := if needsToggle U st.shift c then !st.shift else st.shift
              charCounter := st.charCounter + (word U st.table st.shift c t i).length } { dst with
              table := t
              shift := if needsToggle U st.shift c then !st.shift else st.shift
              charCounter := dst.charCounter + 1 } _ coded st' (plain ++ [canon c])
              ⟨ht2, h1.g, h1.k, h1.b⟩ ⟨ht2, h2.g, h2.k, h2.b⟩ rfl rfl h5
      refine ⟨word U st.table st.shift c t i ++ w, dst', by simpa using hw, ?_, hd.2⟩
      rw [decodeAll_append, hdw]
      simp only []
      rw [hd.1]
      simp

theorem encodeAll_total (U : Unicode) (hU : U.Lawful) (text : Runes) (h : ∀ c ∈ text, c ∈ alphabet) :
    ∀ (st : CState) (pre : Runes), Plain st →
    ∃ st' w, encodeAll U st text pre = .ok (st', pre ++ w) ∧ Plain st' ∧ (∀ x ∈ w, IsLetter x) ∧
      text.length ≤ w.length ∧ w.length ≤ 4 * text.length := by
  induction text with
  | nil => intro st pre hp; exact ⟨st, [], by simp [encodeAll], hp, by simp, by simp, by simp⟩
  | cons c cs ih =>
    intro st pre hp
    obtain ⟨t, i, hf⟩ := findInTables_of_alphabet U hU c (h c (by simp))
    have hs := findInTables_spec _ _ _ hf
    have ht2 : t < 2 := by omega
    simp only [encodeAll]
    rw [encodeCharacter_eq U st hp.b hp.tab, hf]
    simp only []
    obtain ⟨st', w, h1, h2, h3, h4, h5⟩ := ih (fun c hc => h c (by simp [hc]))
      { st with
          table := t
          shift := if needsToggle U st.shift c then !st.shift else st.shift
          charCounter := st.charCounter + (word U st.table st.shift c t i).length }
      (pre ++ word U st.table st.shift c t i) ⟨ht2, hp.g, hp.k, hp.b⟩
    refine ⟨st', word U st.table st.shift c t i ++ w, by rw [h1]; simp, h2, ?_, ?_, ?_⟩
    · intro x hx
      rcases List.mem_append.1 hx with hx | hx
      · exact word_letters U _ _ c t i hs.2.1 x hx
      · exact h3 x hx
    · have := word_length U st.table st.shift c t i
      simp only [List.length_append, List.length_cons]; omega
    · have := word_length U st.table st.shift c t i
      simp only [List.length_append, List.length_cons]; omega

theorem decodeCharacter_safe (U : Unicode) (hU : U.Lawful) (st : CState) (hst : st.table < 2)
    (x : Rune) (plain : Runes) :
    decodeCharacter U st x plain ≠ .panic ∧
    ∀ st' out, decodeCharacter U st x plain = .ok (st', out) →
      st'.table < 2 ∧ IsLetter x ∧ ∃ more, out = plain ++ more ∧ ∀ c ∈ more, c ∈ alphabet := by
  have hlow : ∀ c ∈ capitals ++ neutrals, c ∈ alphabet ∧ U.toLower c ∈ alphabet := by
    intro c hc
    have h1 : ∀ c ∈ capitals, c + 32 ∈ smalls := by decide
    unfold alphabet
    simp only [List.mem_append] at hc ⊢
    rcases hc with hc | hc
    · rw [(hU.capital c hc).2.2.2]
      exact ⟨Or.inl (Or.inl hc), Or.inl (Or.inr (h1 c hc))⟩
    · rw [(hU.neutral c hc).2.2.2]
      exact ⟨Or.inr hc, Or.inr hc⟩
  by_cases hx : x < 65 ∨ x > 90
  · simp [decodeCharacter, hx]
  · have hl : IsLetter x := by unfold IsLetter; omega
    by_cases hb : st.binary = true
    · simp [decodeCharacter, hx, hb]
    · by_cases hk : (if st.gotChangeKeyChar = true then
          ({ st with gotChangeKeyChar := false, keyChange := true } : CState) else st).keyChange = true
      · have : decodeCharacter U st x plain = .ok ((if st.gotChangeKeyChar = true then
          ({ st with gotChangeKeyChar := false, keyChange := true } : CState) else st), plain) := by
          unfold decodeCharacter
          rw [if_neg hx, if_neg hb]
          simp only
          rw [if_pos hk]
        rw [this]
        refine ⟨by simp, ?_⟩
        intro st' out h
        cases h
        refine ⟨?_, hl, [], by simp, by simp⟩
        split <;> exact hst
      · have hg : st.gotChangeKeyChar = false := by
          rcases hgg : st.gotChangeKeyChar with _ | _
          · rfl
          · simp [hgg] at hk
        have hkk : st.keyChange = false := by
          rw [hg] at hk; simpa using hk
        have hbb : st.binary = false := by simpa using hb
        have hp : Plain st := ⟨hst, hg, hkk, hbb⟩
        obtain ⟨i, hi, rfl⟩ : ∃ i : Nat, i < 26 ∧ x = (i : Int) + 65 :=
          ⟨(x - 65).toNat, by unfold IsLetter at hl; omega, by unfold IsLetter at hl; omega⟩
        by_cases hsp : (characterTables[st.table]?.getD [])[i]? = some specialOpChar
        · have hw : i = 22 ∧ st.table = 1 ∨ i = 23 ∧ st.table = 1 ∨ i = 24 ∧ st.table = 1 ∨ i = 25 := by
            have htb : st.table = 0 ∨ st.table = 1 := by omega
            rcases htb with htb | htb
            · rw [htb] at hsp
              have : ∀ i < 26, characterTablePrimary[i]? = some specialOpChar → i = 25 := by decide
              exact Or.inr (Or.inr (Or.inr (this i hi hsp)))
            · rw [htb] at hsp
              have : ∀ i < 26, characterTableSecondary[i]? = some specialOpChar →
                i = 22 ∨ i = 23 ∨ i = 24 ∨ i = 25 := by decide
              have := this i hi hsp
              omega
          rcases hw with ⟨rfl, ht⟩ | ⟨rfl, ht⟩ | ⟨rfl, ht⟩ | rfl
          · have : decodeCharacter U st 87 plain = .ok ({ st with binary := !st.binary }, plain) := by
              obtain ⟨tb, cc, g, k, s, b⟩ := st
              simp only at hg hkk hbb ht
              subst hg hkk hbb ht
              rfl
            have e : ((22 : Nat) : Int) + 65 = 87 := rfl
            rw [e, this]
            refine ⟨by simp, ?_⟩
            intro st' out h; cases h
            exact ⟨hst, by decide, [], by simp, by simp⟩
          · have e : ((23 : Nat) : Int) + 65 = 88 := rfl
            rw [e, decode_case U st hp ht]
            refine ⟨by simp, ?_⟩
            intro st' out h; cases h
            exact ⟨hst, by decide, [], by simp, by simp⟩
          · have e : ((24 : Nat) : Int) + 65 = 89 := rfl
            rw [e, decode_changeKey U st hp ht]
            refine ⟨by simp, ?_⟩
            intro st' out h; cases h
            exact ⟨hst, by decide, [], by simp, by simp⟩
          · have e : ((25 : Nat) : Int) + 65 = 90 := rfl
            rw [e, decode_switch U st hp]
            refine ⟨by simp, ?_⟩
            intro st' out h; cases h
            exact ⟨by simp only; omega, by decide, [], by simp, by simp⟩
        · have hch : ∃ c, (st.table = 0 ∧ characterTablePrimary[i]? = some c ∨
              st.table = 1 ∧ characterTableSecondary[i]? = some c) ∧ c ≠ specialOpChar := by
            have htb : st.table = 0 ∨ st.table = 1 := by omega
            rcases htb with htb | htb
            · rw [htb] at hsp
              have hlen : i < characterTablePrimary.length := hi
              refine ⟨characterTablePrimary[i], Or.inl ⟨htb, List.getElem?_eq_getElem hlen⟩, ?_⟩
              intro he
              apply hsp
              show characterTablePrimary[i]? = _
              rw [List.getElem?_eq_getElem hlen, he]
            · rw [htb] at hsp
              have hlen : i < characterTableSecondary.length := hi
              refine ⟨characterTableSecondary[i], Or.inr ⟨htb, List.getElem?_eq_getElem hlen⟩, ?_⟩
              intro he
              apply hsp
              show characterTableSecondary[i]? = _
              rw [List.getElem?_eq_getElem hlen, he]
          obtain ⟨c, hc, hcs⟩ := hch
          rw [decode_char U st hp st.table i c plain rfl hc hi hcs]
          refine ⟨by simp, ?_⟩
          intro st' out h; cases h
          refine ⟨hst, hl, _, rfl, ?_⟩
          intro y hy
          rw [List.mem_singleton] at hy
          subst hy
          have := hlow c (table_mem _ i c hc hcs)
          split
          · exact this.2
          · exact this.1

end K431
