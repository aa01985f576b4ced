import Verif.CodecLemmas

/-!
# Properties of the coder (C07, C08, C61)

`encodeAll`/`decodeAll` run the program's character functions over a whole text, as the loops of
`Encipher` and `Decipher` do between key changes.
-/

namespace K431
open Spec

/-- **C07.** Every text over the alphabet of the legend can be coded, and decoding the coded letters
gives back the text. -/
theorem C07_coding_round_trip (U : Unicode) (hU : U.Lawful) (text : Runes)
    (h : ∀ c ∈ text, c ∈ alphabet) :
    ∃ st coded, encodeAll U newState text [] = .ok (st, coded) ∧
      ∃ st', decodeAll U newState coded [] = .ok (st', text) := by
  obtain ⟨st, w, h1, _⟩ := encodeAll_total U hU text h newState [] plain_new
  simp only [List.nil_append] at h1
  obtain ⟨dst, h2, _⟩ := encode_decode_general U hU text newState newState w st [] plain_new plain_new
    rfl rfl h1
  refine ⟨st, w, h1, dst, ?_⟩
  rw [h2]
  congr 2
  simp only [List.nil_append]
  conv => rhs; rw [← List.map_id text]
  apply List.map_congr_left
  intro c hc
  exact canon_of_alphabet c (h c hc)

/-- non-vacuity: "Åb 9q" is coded as Z M X Z B Q Z J Q and decodes to itself -/
example : (∀ c ∈ lit "Åb 9q", c ∈ alphabet) ∧
    (encodeAll unicode15 newState (lit "Åb 9q") []).val?.map (·.2) = some (lit "ZMXZBQZJQ") := by decide

/-- **C08.** Coded text consists of letters A..Z only, at least one and at most four per
character. -/
theorem C08_coded_letters (U : Unicode) (hU : U.Lawful) (text : Runes)
    (h : ∀ c ∈ text, c ∈ alphabet) :
    ∃ st coded, encodeAll U newState text [] = .ok (st, coded) ∧ (∀ x ∈ coded, IsLetter x) ∧
      text.length ≤ coded.length ∧ coded.length ≤ 4 * text.length := by
  obtain ⟨st, w, h1, _, h2⟩ := encodeAll_total U hU text h newState [] plain_new
  exact ⟨st, w, by simpa using h1, h2⟩

/-- the bounds of C08 are attained: 'A' takes one letter, 'a' takes four -/
example : (encodeAll unicode15 newState (lit "A") []).val?.map (·.2) = some (lit "A") ∧
    (encodeAll unicode15 newState (lit "a") []).val?.map (·.2) = some (lit "ZXZA") := by decide

/-- **C61.** From any state the decoder can be in, on any rune sequence whatsoever: decoding never
panics; whatever it appends are characters of the legend; and a rune that is not a letter is an
error. -/
theorem C61_decoding_safe (U : Unicode) (hU : U.Lawful) (input : Runes) (st : CState)
    (hst : st.table < 2) (plain : Runes) :
    decodeAll U st input plain ≠ .panic ∧
    (∀ st' out, decodeAll U st input plain = .ok (st', out) →
      (∃ more, out = plain ++ more ∧ ∀ c ∈ more, c ∈ alphabet) ∧ ∀ x ∈ input, IsLetter x) := by
  induction input generalizing st plain with
  | nil =>
    simp only [decodeAll]
    refine ⟨by simp, ?_⟩
    intro st' out h
    cases h
    exact ⟨⟨[], by simp, by simp⟩, by simp⟩
  | cons x xs ih =>
    obtain ⟨hnp, hok⟩ := decodeCharacter_safe U hU st hst x plain
    simp only [decodeAll]
    rcases hd : decodeCharacter U st x plain with ⟨st1, out1⟩ | e | _
    · obtain ⟨ht, hx, more1, he, hm⟩ := hok st1 out1 hd
      obtain ⟨h1, h2⟩ := ih st1 ht out1
      refine ⟨h1, ?_⟩
      intro st' out h
      obtain ⟨⟨more, he2, hm2⟩, hl⟩ := h2 st' out h
      refine ⟨⟨more1 ++ more, by rw [he2, he]; simp, ?_⟩, ?_⟩
      · intro c hc
        rcases List.mem_append.1 hc with hc | hc
        · exact hm c hc
        · exact hm2 c hc
      · intro y hy
        rcases List.mem_cons.1 hy with rfl | hy
        · exact hx
        · exact hl y hy
    · exact ⟨by simp, by intro _ _ h; cases h⟩
    · exact absurd hd hnp

/-- non-vacuity: garbage decodes to something, a digit and binary mode are errors -/
example : (decodeAll unicode15 newState (lit "ZZQXZWB") []).val?.map (·.2) = none ∧
    (decodeAll unicode15 newState (lit "HEJ") []).val?.map (·.2) = some (lit "HEJ") ∧
    decodeAll unicode15 newState (lit "H1") [] = .err .invalidCoding := by decide

end K431
