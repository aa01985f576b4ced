import Verif.ColumnLemmas
import Verif.Codec

/-!
# The widths of columns: C89
-/

namespace K431
open Spec

/-- **C89**, full statement: for all rows and headers, `ColumnSizes` returns a width for each column that any row has; the width of a column is that of its widest cell, or of its header if
that is wider. -/
def C89_Statement (Fits : List (List Runes) → List (List Nat) → Prop) : Prop :=
  ∀ (rows : List (List Runes)) (headers : List (List Nat)), Fits rows headers → ∃ sizes, columnSizes rows headers = .ok sizes ∧
    (∀ col, col < sizes.length ↔ ∃ row ∈ rows, col < row.length) ∧
    ∀ (col w : Nat), sizes[col]? = some w →
      (∀ row ∈ rows, ∀ cell, row[col]? = some cell → cell.length ≤ w) ∧ (∀ h, headers[col]? = some h → h.length ≤ w) ∧
      ((∃ row ∈ rows, ∃ cell, row[col]? = some cell ∧ cell.length = w) ∨ ∃ h, headers[col]? = some h ∧ h.length = w)

/-- **C89**, what holds: so it is if no row has more cells than there are headers. -/
theorem C89_partial : C89_Statement (fun rows headers => ∀ row ∈ rows, row.length ≤ headers.length) := by
  intro rows headers hl
  have h0 : Widths (fun _ _ => False) [] := ⟨by simp, by simp, by simp⟩
  obtain ⟨sizes, h1, h2⟩ := rowLoop_spec rows [] _ h0 hl
  refine ⟨sizes, h1, ?_, ?_⟩
  · intro col
    rw [h2.columns col]
    constructor
    · rintro ⟨n, h | ⟨row, hr, cell, hc, -⟩⟩
      · exact h.elim
      · exact ⟨row, hr, (List.getElem?_eq_some_iff.1 hc).1⟩
    · rintro ⟨row, hr, hc⟩
      exact ⟨_, .inr ⟨row, hr, row[col], List.getElem?_eq_getElem hc, rfl⟩⟩
  · intro col w hw
    obtain ⟨hlt, e⟩ := List.getElem?_eq_some_iff.1 hw
    have hd : sizes.getD col 0 = w := by rw [List.getD_eq_getElem _ _ hlt]; exact e
    have hr := h2.reached col hlt
    rw [hd] at hr
    have hb := h2.bound col
    rw [hd] at hb
    rcases hr with hr | ⟨row, hr, cell, hc, hm⟩
    · exact hr.elim
    have hh : ∀ h, headers[col]? = some h → headers.getD col [] = h := by
      intro h hx
      rw [List.getD_eq_getElem?_getD, hx]
      rfl
    refine ⟨?_, ?_, ?_⟩
    · intro row' hr' cell' hc'
      have := hb _ (.inr ⟨row', hr', cell', hc', rfl⟩)
      unfold cellSize at this
      omega
    · intro h hx
      unfold cellSize at hm
      rw [hh h hx] at hm
      omega
    · unfold cellSize at hm
      have hlen := hl row hr
      have hcol := (List.getElem?_eq_some_iff.1 hc).1
      by_cases hx : (headers.getD col []).length ≤ cell.length
      · exact .inl ⟨row, hr, cell, hc, by omega⟩
      · exact .inr ⟨headers.getD col [], by rw [List.getD_eq_getElem _ _ (by omega)]; exact List.getElem?_eq_getElem _, by omega⟩

/-- **C89**, exactly when it does not: if any row has more cells than there are headers, `ColumnSizes` panics. -/
theorem C89_panics (rows : List (List Runes)) (headers : List (List Nat)) (row : List Runes) (hr : row ∈ rows) (h : headers.length < row.length) : columnSizes rows headers = .panic :=
  rowLoop_panic rows [] ⟨row, hr, h⟩

/-- The full statement does not hold: without headers, which are optional, any row makes it panic. -/
theorem C89_violated : ¬ C89_Statement (fun _ _ => True) := by
  intro h
  obtain ⟨sizes, hs, -⟩ := h [[[65]]] [] trivial
  rw [show columnSizes [[[65]]] [] = .panic by decide] at hs
  cases hs

/-- **C89**, `HighestInt` and `LowestInt`: of any numbers of the machine they return the greatest and the least, and 0 if there are none. -/
theorem C89_extremes (ns : List Int) (hn : ∀ n ∈ ns, -9223372036854775808 ≤ n ∧ n ≤ 9223372036854775807) :
    (ns = [] → highestInt ns = 0 ∧ lowestInt ns = 0) ∧
    (ns ≠ [] → highestInt ns ∈ ns ∧ lowestInt ns ∈ ns ∧ ∀ n ∈ ns, n ≤ highestInt ns ∧ lowestInt ns ≤ n) := by
  refine ⟨?_, ?_⟩
  · rintro rfl; exact ⟨rfl, rfl⟩
  · intro h0
    have hl : ¬ ns.length = 0 := by rwa [List.length_eq_zero_iff]
    obtain ⟨h1, h2, h3⟩ := highestLoop_spec ns minInt
    obtain ⟨l1, l2, l3⟩ := lowestLoop_spec ns maxInt
    unfold highestInt lowestInt
    rw [if_neg hl, if_neg hl]
    obtain ⟨x, hx⟩ := List.exists_mem_of_ne_nil ns h0
    refine ⟨?_, ?_, fun n hn' => ⟨h2 n hn', l2 n hn'⟩⟩
    · rcases h3 with h3 | h3
      · have a := h2 x hx
        have b := hn x hx
        rw [h3] at a ⊢
        unfold minInt at *
        rw [show (-9223372036854775808 : Int) = x by omega]
        exact hx
      · exact h3
    · rcases l3 with l3 | l3
      · have a := l2 x hx
        have b := hn x hx
        rw [l3] at a ⊢
        unfold maxInt at *
        rw [show (9223372036854775807 : Int) = x by omega]
        exact hx
      · exact l3

/-- non-vacuity -/
example : columnSizes [[lit "A", lit "LONG"], [lit "ABC"]] [[1, 2], [1, 2], []] = .ok [3, 4] ∧ columnSizes [[lit "A"]] [] = .panic := by decide
example : highestInt [3, 9, -2] = 9 ∧ lowestInt [3, 9, -2] = -2 ∧ highestInt [] = 0 := by decide

end K431
