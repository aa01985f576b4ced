import Verif.Diana

/-! # Helper lemmas about the trigraph -/

namespace K431
open Spec

theorem tmod26 (v : Int) : (0 ≤ v → Int.tmod v 26 = v % 26) ∧ (v < 0 → Int.tmod v 26 = -((-v) % 26)) := by
  constructor
  · intro h; exact Int.tmod_eq_emod_of_nonneg h
  · intro h
    have h2 : Int.tmod (-v) 26 = (-v) % 26 := Int.tmod_eq_emod_of_nonneg (by omega)
    rw [Int.neg_tmod] at h2
    omega

theorem trigraphValue_spec (x y : Int) (_hx : IsLetter x) (_hy : IsLetter y) :
    IsLetter (trigraphValue x y) ∧ (pos x + pos y + pos (trigraphValue x y)) % 26 = 25 := by
  unfold trigraphValue IsLetter pos at *
  have h1 := tmod26 (25 - (x - 65) - (y - 65))
  have h2 := tmod26 (Int.tmod (25 - (x - 65) - (y - 65)) 26 + 26)
  omega

theorem inRange_iff (x y : Int) : trigraphOutOfRange x y = false ↔ IsLetter x ∧ IsLetter y := by
  unfold trigraphOutOfRange IsLetter
  simp

/-- the third letter is determined by the other two -/
theorem Spec.Trigraph.unique {x y z z' : Int} (h : Trigraph x y z) (h' : Trigraph x y z') : z = z' := by
  unfold Trigraph IsLetter pos at *
  omega

theorem trigraph_ok_iff (x y z : Int) : trigraph x y = .ok z ↔ Trigraph x y z := by
  unfold trigraph
  by_cases h : IsLetter x ∧ IsLetter y
  · have h0 := (inRange_iff x y).2 h
    have hs := trigraphValue_spec x y h.1 h.2
    simp only [h0, Bool.false_eq_true, if_false, Outcome.ok.injEq]
    constructor
    · rintro rfl; exact ⟨h.1, h.2, hs.1, hs.2⟩
    · intro ht; exact Trigraph.unique ⟨h.1, h.2, hs.1, hs.2⟩ ht
  · have h0 : trigraphOutOfRange x y = true := by
      rcases hb : trigraphOutOfRange x y with _ | _
      · exact absurd ((inRange_iff x y).1 hb) h
      · rfl
    simp only [h0, if_true]
    constructor
    · intro hc; cases hc
    · intro ht; exact absurd ⟨ht.1, ht.2.1⟩ h

theorem Spec.Trigraph.swap12 {x y z : Int} (h : Trigraph x y z) : Trigraph y x z := by
  unfold Trigraph IsLetter pos at *; omega
theorem Spec.Trigraph.swap23 {x y z : Int} (h : Trigraph x y z) : Trigraph x z y := by
  unfold Trigraph IsLetter pos at *; omega
theorem Spec.Trigraph.swap13 {x y z : Int} (h : Trigraph x y z) : Trigraph z y x := by
  unfold Trigraph IsLetter pos at *; omega

theorem trigraph_total {x y : Int} (hx : IsLetter x) (hy : IsLetter y) :
    ∃ z, Trigraph x y z :=
  ⟨trigraphValue x y, hx, hy, (trigraphValue_spec x y hx hy).1, (trigraphValue_spec x y hx hy).2⟩

theorem trigraph_not_panic (x y : Int) : trigraph x y ≠ .panic := by
  unfold trigraph; split <;> simp

end K431
