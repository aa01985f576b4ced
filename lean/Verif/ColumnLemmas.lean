import Verif.Columns
import Mathlib.Data.List.GetD

/-!
# Lemmas about `ColumnSizes`, `HighestInt` and `LowestInt`
-/

namespace K431

/-- the sizes are those of the cells seen, `S col n` for a cell of size `n` in a column -/
structure Widths (S : Nat → Nat → Prop) (sizes : List Nat) : Prop where
  columns : ∀ col, col < sizes.length ↔ ∃ n, S col n
  bound : ∀ col n, S col n → n ≤ sizes.getD col 0
  reached : ∀ col, col < sizes.length → S col (sizes.getD col 0)

theorem Widths.step {S : Nat → Nat → Prop} {sizes : List Nat} (h : Widths S sizes) {col n : Nat} (hc : col ≤ sizes.length) :
    Widths (fun c m => S c m ∨ c = col ∧ m = n) (if sizes.length ≤ col then sizes ++ [n] else if sizes.getD col 0 < n then sizes.set col n else sizes) := by
  have hS : ∀ c m, S c m → c < sizes.length := fun c m hs => (h.columns c).2 ⟨m, hs⟩
  split
  · have e : col = sizes.length := by omega
    subst e
    refine ⟨?_, ?_, ?_⟩
    · intro c
      rw [List.length_append, List.length_singleton]
      constructor
      · intro hlt
        by_cases hc' : c = sizes.length
        · exact ⟨n, .inr ⟨hc', rfl⟩⟩
        · obtain ⟨m, hm⟩ := (h.columns c).1 (by omega)
          exact ⟨m, .inl hm⟩
      · rintro ⟨m, hm | ⟨rfl, -⟩⟩
        · have := hS c m hm; omega
        · omega
    · rintro c m (hm | ⟨rfl, rfl⟩)
      · have hlt := hS c m hm
        have := h.bound c m hm
        rw [List.getD_append _ _ _ _ hlt]
        exact this
      · rw [List.getD_append_right _ _ _ _ (Nat.le_refl _)]
        simp
    · intro c hlt
      rw [List.length_append, List.length_singleton] at hlt
      by_cases hc' : c = sizes.length
      · subst hc'
        right
        rw [List.getD_append_right _ _ _ _ (Nat.le_refl _)]
        simp
      · left
        rw [List.getD_append _ _ _ _ (by omega)]
        exact h.reached c (by omega)
  · rename_i hlt
    split
    · rename_i hn
      refine ⟨?_, ?_, ?_⟩
      · intro c
        rw [List.length_set]
        constructor
        · intro hc'
          obtain ⟨m, hm⟩ := (h.columns c).1 hc'
          exact ⟨m, .inl hm⟩
        · rintro ⟨m, hm | ⟨rfl, -⟩⟩
          · exact hS c m hm
          · omega
      · rintro c m (hm | ⟨rfl, rfl⟩)
        · have := h.bound c m hm
          have hc' := hS c m hm
          by_cases e : col = c
          · subst e
            rw [List.getD_eq_getElem _ _ (by rw [List.length_set]; exact hc'), List.getElem_set_self]
            omega
          · rw [List.getD_eq_getElem _ _ (by rw [List.length_set]; exact hc'), List.getElem_set_ne e]
            rw [List.getD_eq_getElem _ _ hc'] at this
            exact this
        · rw [List.getD_eq_getElem _ _ (by rw [List.length_set]; omega), List.getElem_set_self]
          exact Nat.le_refl _
      · intro c hc'
        rw [List.length_set] at hc'
        by_cases e : col = c
        · subst e
          right
          rw [List.getD_eq_getElem _ _ (by rw [List.length_set]; exact hc'), List.getElem_set_self]
          exact ⟨rfl, rfl⟩
        · left
          have := h.reached c hc'
          rw [List.getD_eq_getElem _ _ hc'] at this
          rw [List.getD_eq_getElem _ _ (by rw [List.length_set]; exact hc'), List.getElem_set_ne e]
          exact this
    · rename_i hn
      refine ⟨?_, ?_, ?_⟩
      · intro c
        constructor
        · intro hc'
          obtain ⟨m, hm⟩ := (h.columns c).1 hc'
          exact ⟨m, .inl hm⟩
        · rintro ⟨m, hm | ⟨rfl, -⟩⟩
          · exact hS c m hm
          · omega
      · rintro c m (hm | ⟨rfl, rfl⟩)
        · exact h.bound c m hm
        · omega
      · intro c hc'
        exact .inl (h.reached c hc')

theorem Widths.congr {S T : Nat → Nat → Prop} {sizes : List Nat} (h : Widths S sizes) (e : ∀ c m, S c m ↔ T c m) : Widths T sizes :=
  ⟨fun c => by rw [h.columns c]; exact exists_congr (e c), fun c m hm => h.bound c m ((e c m).2 hm), fun c hc => (e _ _).1 (h.reached c hc)⟩

/-- the size a cell asks for -/
def cellSize (headers : List (List Nat)) (col : Nat) (cell : Runes) : Nat := max (headers.getD col []).length cell.length

theorem columnLoop_spec {headers : List (List Nat)} : ∀ (cells : List Runes) (col : Nat) (sizes : List Nat) (S : Nat → Nat → Prop), Widths S sizes → col ≤ sizes.length →
    col + cells.length ≤ headers.length → ∃ sizes', columnLoop headers cells col sizes = .ok sizes' ∧
      Widths (fun c m => S c m ∨ ∃ i cell, cells[i]? = some cell ∧ c = col + i ∧ m = cellSize headers c cell) sizes' := by
  intro cells
  induction cells with
  | nil =>
    intro col sizes S h _ _
    exact ⟨sizes, rfl, h.congr (fun c m => by simp)⟩
  | cons cell cells ih =>
    intro col sizes S h hc hl
    rw [List.length_cons] at hl
    have hcell : (if (headers[col]'(by omega)).length > cell.length then (headers[col]'(by omega)).length else cell.length) = cellSize headers col cell := by
      unfold cellSize
      rw [List.getD_eq_getElem _ _ (by omega)]
      split <;> omega
    unfold columnLoop
    rw [if_pos (by omega), List.getElem?_eq_getElem (by omega)]
    dsimp only
    rw [hcell]
    have hs := h.step (n := cellSize headers col cell) hc
    have hlen : col + 1 ≤ (if sizes.length ≤ col then sizes ++ [cellSize headers col cell] else
        if sizes.getD col 0 < cellSize headers col cell then sizes.set col (cellSize headers col cell) else sizes).length := by
      have := (hs.columns col).2 ⟨_, .inr ⟨rfl, rfl⟩⟩
      exact this
    obtain ⟨sizes', h1, h2⟩ := ih (col + 1) _ _ hs hlen (by omega)
    refine ⟨sizes', h1, h2.congr (fun c m => ?_)⟩
    constructor
    · rintro ((hm | ⟨rfl, rfl⟩) | ⟨i, x, hx, rfl, rfl⟩)
      · exact .inl hm
      · exact .inr ⟨0, cell, rfl, rfl, rfl⟩
      · exact .inr ⟨i + 1, x, hx, by omega, rfl⟩
    · rintro (hm | ⟨i, x, hx, rfl, rfl⟩)
      · exact .inl (.inl hm)
      · cases i with
        | zero =>
          simp only [List.getElem?_cons_zero, Option.some.injEq] at hx
          subst hx
          exact .inl (.inr ⟨rfl, rfl⟩)
        | succ i => exact .inr ⟨i, x, hx, by omega, rfl⟩

theorem rowLoop_spec {headers : List (List Nat)} : ∀ (rows : List (List Runes)) (sizes : List Nat) (S : Nat → Nat → Prop), Widths S sizes →
    (∀ row ∈ rows, row.length ≤ headers.length) → ∃ sizes', rowLoop headers rows sizes = .ok sizes' ∧
      Widths (fun c m => S c m ∨ ∃ row ∈ rows, ∃ cell, row[c]? = some cell ∧ m = cellSize headers c cell) sizes' := by
  intro rows
  induction rows with
  | nil =>
    intro sizes S h _
    exact ⟨sizes, rfl, h.congr (fun c m => by simp)⟩
  | cons row rows ih =>
    intro sizes S h hl
    obtain ⟨s1, h1, h2⟩ := columnLoop_spec (headers := headers) row 0 sizes S h (by omega) (by have := hl row (by simp); omega)
    obtain ⟨s2, h3, h4⟩ := ih s1 _ h2 (fun r hr => hl r (by simp [hr]))
    unfold rowLoop
    rw [h1]
    refine ⟨s2, h3, h4.congr (fun c m => ?_)⟩
    constructor
    · rintro ((hm | ⟨i, x, hx, e, rfl⟩) | ⟨r, hr, x, hx, rfl⟩)
      · exact .inl hm
      · rw [Nat.zero_add] at e
        subst e
        exact .inr ⟨row, by simp, x, hx, rfl⟩
      · exact .inr ⟨r, by simp [hr], x, hx, rfl⟩
    · rintro (hm | ⟨r, hr, x, hx, rfl⟩)
      · exact .inl (.inl hm)
      · rcases List.mem_cons.1 hr with rfl | hr
        · exact .inl (.inr ⟨c, x, hx, by omega, rfl⟩)
        · exact .inr ⟨r, hr, x, hx, rfl⟩

theorem columnLoop_panic {headers : List (List Nat)} : ∀ (cells : List Runes) (col : Nat) (sizes : List Nat), col ≤ headers.length → headers.length < col + cells.length →
    columnLoop headers cells col sizes = .panic := by
  intro cells
  induction cells with
  | nil => intro col sizes h1 h2; simp at h2; omega
  | cons cell cells ih =>
    intro col sizes h1 h2
    rw [List.length_cons] at h2
    unfold columnLoop
    rw [if_pos h1]
    rcases hx : headers[col]? with _ | h
    · rfl
    · have := (List.getElem?_eq_some_iff.1 hx).1
      exact ih _ _ (by omega) (by omega)

theorem rowLoop_panic {headers : List (List Nat)} : ∀ (rows : List (List Runes)) (sizes : List Nat), (∃ row ∈ rows, headers.length < row.length) → rowLoop headers rows sizes = .panic := by
  intro rows
  induction rows with
  | nil => rintro sizes ⟨row, hr, -⟩; cases hr
  | cons row rows ih =>
    rintro sizes ⟨r, hr, hl⟩
    unfold rowLoop
    by_cases h : headers.length < row.length
    · rw [columnLoop_panic row 0 sizes (by omega) (by omega)]
    · rcases List.mem_cons.1 hr with rfl | hr
      · exact absurd hl h
      · rcases hx : columnLoop headers row 0 sizes with s | e | _
        · exact ih s ⟨r, hr, hl⟩
        · exfalso
          have : ∀ (cells : List Runes) (col : Nat) (sizes : List Nat) (e : Err), columnLoop headers cells col sizes ≠ .err e := by
            intro cells
            induction cells with
            | nil => intro _ _ _ h; cases h
            | cons c cs ihc =>
              intro col sizes e h
              unfold columnLoop at h
              dsimp only at h
              split at h
              · exact ihc _ _ _ h
              · rename_i hi
                split at hi
                · split at hi <;> cases hi
                · cases hi
              · cases h
          exact this _ _ _ _ hx
        · rfl

theorem highestLoop_spec : ∀ (ns : List Int) (h : Int), h ≤ highestLoop ns h ∧ (∀ n ∈ ns, n ≤ highestLoop ns h) ∧ (highestLoop ns h = h ∨ highestLoop ns h ∈ ns) := by
  intro ns
  induction ns with
  | nil => intro h; exact ⟨Int.le_refl _, by simp, .inl rfl⟩
  | cons n ns ih =>
    intro h
    unfold highestLoop
    obtain ⟨h1, h2, h3⟩ := ih (if n > h then n else h)
    refine ⟨?_, ?_, ?_⟩
    · split at h1 <;> split <;> first | omega | (exfalso; omega)
    · intro m hm
      rcases List.mem_cons.1 hm with rfl | hm
      · split at h1 <;> split <;> first | omega | (exfalso; omega)
      · exact h2 m hm
    · rcases h3 with h3 | h3
      · rw [h3]
        split
        · right; simp
        · left; rfl
      · right; simp [h3]

theorem lowestLoop_spec : ∀ (ns : List Int) (h : Int), lowestLoop ns h ≤ h ∧ (∀ n ∈ ns, lowestLoop ns h ≤ n) ∧ (lowestLoop ns h = h ∨ lowestLoop ns h ∈ ns) := by
  intro ns
  induction ns with
  | nil => intro h; exact ⟨Int.le_refl _, by simp, .inl rfl⟩
  | cons n ns ih =>
    intro h
    unfold lowestLoop
    obtain ⟨h1, h2, h3⟩ := ih (if n < h then n else h)
    refine ⟨?_, ?_, ?_⟩
    · split at h1 <;> split <;> first | omega | (exfalso; omega)
    · intro m hm
      rcases List.mem_cons.1 hm with rfl | hm
      · split at h1 <;> split <;> first | omega | (exfalso; omega)
      · exact h2 m hm
    · rcases h3 with h3 | h3
      · rw [h3]
        split
        · right; simp
        · left; rfl
      · right; simp [h3]

end K431
