import Verif.SpecPfk

/-! # Lemmas about hex strings and password input -/

namespace K431
open Spec

theorem mem_lowerHex {c : Nat} : c ∈ lowerHex ↔ (48 ≤ c ∧ c ≤ 57) ∨ (97 ≤ c ∧ c ≤ 102) := by
  have : lowerHex = [48, 49, 50, 51, 52, 53, 54, 55, 56, 57, 97, 98, 99, 100, 101, 102] := by decide
  rw [this]; simp only [List.mem_cons, List.not_mem_nil, or_false]
  constructor <;> intro h <;> omega

theorem mem_upperHex {c : Nat} : c ∈ upperHex ↔ 65 ≤ c ∧ c ≤ 70 := by
  have : upperHex = [65, 66, 67, 68, 69, 70] := by decide
  rw [this]; simp only [List.mem_cons, List.not_mem_nil, or_false]
  constructor <;> intro h <;> omega

theorem hexVal_isSome (c : Nat) : (hexVal c).isSome = true ↔ c ∈ lowerHex ∨ c ∈ upperHex := by
  rw [mem_lowerHex, mem_upperHex]; unfold hexVal
  split
  · simp; omega
  · split
    · simp; omega
    · split
      · simp; omega
      · simp; omega

theorem hexVal_some {c v : Nat} (h : hexVal c = some v) :
    v < 16 ∧ hexDigit v = (if c ∈ upperHex then c + 32 else c) := by
  simp only [mem_upperHex]
  unfold hexVal at h; unfold hexDigit
  split at h
  · simp only [Option.some.injEq] at h; subst h
    rw [if_pos (by omega), if_neg (by omega)]; omega
  · split at h
    · simp only [Option.some.injEq] at h; subst h
      rw [if_neg (by omega), if_neg (by omega)]; omega
    · split at h
      · simp only [Option.some.injEq] at h; subst h
        rw [if_neg (by omega), if_pos (by omega)]; omega
      · cases h

theorem hexVal_digit {n : Nat} (h : n < 16) : hexVal (hexDigit n) = some n := by
  unfold hexVal hexDigit
  by_cases hn : n < 10
  · rw [if_pos hn, if_pos (by omega)]; congr 1; omega
  · rw [if_neg hn, if_neg (by omega), if_pos (by omega)]; congr 1; omega

/-- what decodes decodes to bytes that encode to the string in lower case -/
theorem hexDecode_some : ∀ {s b : List Nat}, hexDecode s = some b →
    s.length = 2 * b.length ∧ (∀ x ∈ b, x < 256) ∧ hexEncode b = lower s
  | [], b, h => by simp only [hexDecode, Option.some.injEq] at h; subst h; simp [hexEncode, lower]
  | [_], b, h => by simp [hexDecode] at h
  | a :: c :: r, b, h => by
    unfold hexDecode at h
    cases ha : hexVal a with
    | none => simp [ha] at h
    | some x =>
      cases hc : hexVal c with
      | none => simp [ha, hc] at h
      | some y =>
        simp only [ha, hc, Option.map_eq_some_iff] at h
        obtain ⟨t, ht, rfl⟩ := h
        obtain ⟨h1, h2, h3⟩ := hexDecode_some ht
        have hx := hexVal_some ha
        have hy := hexVal_some hc
        refine ⟨by simp [h1]; omega, ?_, ?_⟩
        · intro z hz
          rcases List.mem_cons.1 hz with rfl | hz
          · omega
          · exact h2 z hz
        · have e1 : (16 * x + y) / 16 = x := by omega
          have e2 : (16 * x + y) % 16 = y := by omega
          simp only [hexEncode, List.flatMap_cons, e1, e2, hx.2, hy.2, lower, List.map_cons, List.cons_append, List.nil_append]
          simp only [hexEncode, lower] at h3
          rw [h3]

theorem hexDecode_isSome : ∀ (s : List Nat), (hexDecode s).isSome = true ↔
    s.length % 2 = 0 ∧ ∀ c ∈ s, c ∈ lowerHex ∨ c ∈ upperHex
  | [] => by simp [hexDecode]
  | [_] => by simp [hexDecode]
  | a :: c :: r => by
    have ih := hexDecode_isSome r
    unfold hexDecode
    have ha := hexVal_isSome a
    have hc := hexVal_isSome c
    cases h1 : hexVal a with
    | none =>
      rw [h1] at ha
      simp only [Option.isSome_none, Bool.false_eq_true, false_iff, not_and]
      intro _ hall
      exact absurd (ha.2 (hall a (by simp))) (by simp)
    | some x =>
      cases h2 : hexVal c with
      | none =>
        rw [h2] at hc
        simp only [Option.isSome_none, Bool.false_eq_true, false_iff, not_and]
        intro _ hall
        exact absurd (hc.2 (hall c (by simp))) (by simp)
      | some y =>
        rw [h1] at ha; rw [h2] at hc
        have ha := ha.1 rfl
        have hc := hc.1 rfl
        simp only [Option.isSome_map]
        rw [ih]
        constructor
        · rintro ⟨e, hall⟩
          refine ⟨by simp; omega, ?_⟩
          intro z hz
          simp only [List.mem_cons] at hz
          rcases hz with rfl | rfl | hz
          · exact ha
          · exact hc
          · exact hall z hz
        · rintro ⟨e, hall⟩
          exact ⟨by simp at e; omega, fun z hz => hall z (by simp [hz])⟩

theorem hexDecode_encode : ∀ (b : List Nat), (∀ x ∈ b, x < 256) → hexDecode (hexEncode b) = some b
  | [], _ => rfl
  | x :: b, h => by
    have ih := hexDecode_encode b (fun y hy => h y (by simp [hy]))
    have hx := h x (by simp)
    simp only [hexEncode, List.flatMap_cons, List.cons_append, List.nil_append]
    rw [hexDecode, hexVal_digit (by omega), hexVal_digit (by omega)]
    rw [show List.flatMap (fun b => [hexDigit (b / 16), hexDigit (b % 16)]) b = hexEncode b from rfl, ih]
    simp only [Option.map_some, Option.some.injEq, List.cons.injEq, and_true]
    omega

theorem hexString_iff (s : List Nat) (n : Nat) :
    HexString n s ↔ ∃ b, hexDecode s = some b ∧ b.length = n := by
  constructor
  · rintro ⟨hl, hall⟩
    have : (hexDecode s).isSome = true := (hexDecode_isSome s).2 ⟨by omega, hall⟩
    obtain ⟨b, hb⟩ := Option.isSome_iff_exists.1 this
    have := (hexDecode_some hb).1
    exact ⟨b, hb, by omega⟩
  · rintro ⟨b, hb, hn⟩
    have h1 := (hexDecode_some hb).1
    have h2 := (hexDecode_isSome s).1 (by rw [hb]; rfl)
    exact ⟨by omega, h2.2⟩

/-- The loop of `AskAndConfirmPassword`, from any position. -/
theorem askConfirmLoop_spec (strong : List Nat → Bool) :
    ∀ (inputs : List (Option (List Nat))) (i : Nat) (w : List Nat) (a : Asked),
      askConfirmLoop strong i inputs w = some a →
      ∃ done, a.read = i + done ∧ done ≤ inputs.length ∧ 0 < done ∧
        ((∃ pw, a.result = .ok pw ∧ strong pw = true ∧ 2 ≤ done ∧ inputs[done - 2]? = some (some pw) ∧
            inputs[done - 1]? = some (some pw) ∧
            ∃ v, a.wiped = w ++ v ∧ ∀ j, j ∈ v ↔ i ≤ j ∧ j < i + done ∧ j ≠ i + done - 2) ∨
         (∃ e, a.result = .err e ∧ inputs[done - 1]? = some none ∧
            ∃ v, a.wiped = w ++ v ∧
              ((∀ j, j ∈ v ↔ i ≤ j ∧ j < i + done - 1) ∨
               (2 ≤ done ∧ (∃ pw, inputs[done - 2]? = some (some pw) ∧ strong pw = true) ∧
                ∀ j, j ∈ v ↔ i ≤ j ∧ j < i + done - 2))))
  | [], i, w, a, h => by simp [askConfirmLoop] at h
  | none :: r, i, w, a, h => by
    simp only [askConfirmLoop, Option.some.injEq] at h; subst h
    refine ⟨1, rfl, by simp, by omega, Or.inr ⟨.other, rfl, by simp, [], by simp, Or.inl ?_⟩⟩
    intro j; simp
  | [some _], i, w, a, h => by simp [askConfirmLoop] at h
  | some p1 :: x :: r, i, w, a, h => by
    unfold askConfirmLoop at h
    by_cases hs : strong p1 = true
    · rw [if_neg (by simp [hs])] at h
      cases x with
      | none =>
        simp only [Option.some.injEq] at h; subst h
        refine ⟨2, rfl, by simp, by omega, Or.inr ⟨.other, rfl, by simp, [], by simp, Or.inr ⟨by omega, ⟨p1, by simp, hs⟩, ?_⟩⟩⟩
        intro j; simp
      | some p2 =>
        simp only at h
        by_cases he : p1 = p2
        · subst he
          rw [if_pos rfl] at h
          simp only [Option.some.injEq] at h; subst h
          refine ⟨2, rfl, by simp, by omega, Or.inl ⟨p1, rfl, hs, by omega, by simp, by simp, [i + 1], rfl, ?_⟩⟩
          intro j; simp only [List.mem_singleton]; omega
        · rw [if_neg he] at h
          obtain ⟨done, h1, h2, h3, h4⟩ := askConfirmLoop_spec strong r (i + 2) _ a h
          refine ⟨done + 2, by omega, by simp; omega, by omega, ?_⟩
          rcases h4 with ⟨pw, e1, e2, e3, e4, e5, v, e6, e7⟩ | ⟨e, e1, e2, v, e3, e4⟩
          · refine Or.inl ⟨pw, e1, e2, by omega, ?_, ?_, [i, i + 1] ++ v, by simp [e6], ?_⟩
            · rw [show done + 2 - 2 = (done - 2) + 2 by omega]; simpa using e4
            · rw [show done + 2 - 1 = (done - 1) + 2 by omega]; simpa using e5
            · intro j; simp only [List.mem_append, List.mem_cons, List.not_mem_nil, or_false, e7]; omega
          · refine Or.inr ⟨e, e1, ?_, [i, i + 1] ++ v, by simp [e3], ?_⟩
            · rw [show done + 2 - 1 = (done - 1) + 2 by omega]; simpa using e2
            · rcases e4 with e4 | ⟨f1, ⟨pw, f2, f3⟩, f4⟩
              · left; intro j; simp only [List.mem_append, List.mem_cons, List.not_mem_nil, or_false, e4]; omega
              · right; refine ⟨by omega, ⟨pw, ?_, f3⟩, ?_⟩
                · rw [show done + 2 - 2 = (done - 2) + 2 by omega]; simpa using f2
                · intro j; simp only [List.mem_append, List.mem_cons, List.not_mem_nil, or_false, f4]; omega
    · rw [if_pos (by simp [hs])] at h
      obtain ⟨done, h1, h2, h3, h4⟩ := askConfirmLoop_spec strong (x :: r) (i + 1) _ a h
      refine ⟨done + 1, by omega, by simp at h2 ⊢; omega, by omega, ?_⟩
      rcases h4 with ⟨pw, e1, e2, e3, e4, e5, v, e6, e7⟩ | ⟨e, e1, e2, v, e3, e4⟩
      · refine Or.inl ⟨pw, e1, e2, by omega, ?_, ?_, [i] ++ v, by simp [e6], ?_⟩
        · rw [show done + 1 - 2 = (done - 2) + 1 by omega, List.getElem?_cons_succ]; exact e4
        · rw [show done + 1 - 1 = (done - 1) + 1 by omega, List.getElem?_cons_succ]; exact e5
        · intro j; simp only [List.mem_append, List.mem_singleton, e7]; omega
      · refine Or.inr ⟨e, e1, ?_, [i] ++ v, by simp [e3], ?_⟩
        · rw [show done + 1 - 1 = (done - 1) + 1 by omega, List.getElem?_cons_succ]; exact e2
        · rcases e4 with e4 | ⟨f1, ⟨pw, f2, f3⟩, f4⟩
          · left; intro j; simp only [List.mem_append, List.mem_singleton, e4]; omega
          · right; refine ⟨by omega, ⟨pw, ?_, f3⟩, ?_⟩
            · rw [show done + 1 - 2 = (done - 2) + 1 by omega, List.getElem?_cons_succ]; exact f2
            · intro j; simp only [List.mem_append, List.mem_singleton, f4]; omega

end K431
