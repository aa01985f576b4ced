import Verif.SpecCli
import Verif.CodecLemmas
import Mathlib.Tactic.IntervalCases

/-!
# Lemmas about the legend and the pages
-/

namespace K431
open Spec

theorem legend_rows : ∀ t < 2, ∀ i < 26, ∃ c tab, legendChar t i = some c ∧ characterTables[t]? = some tab ∧
    (if c = markSwitch then i = 25 else if c = markBinary then t = 1 ∧ i = 22 else if c = markCase then t = 1 ∧ i = 23
     else if c = markKey then t = 1 ∧ i = 24 else tab[i]? = some c ∧ c ∈ capitals ++ neutrals ∧
       findInTables c 0 characterTables = some (t, i)) := by
  intro t ht i hi
  interval_cases t
  · interval_cases i <;> exact ⟨_, _, rfl, rfl, by decide⟩
  · interval_cases i <;> exact ⟨_, _, rfl, rfl, by decide⟩

theorem pagesLoop_flatten {α : Type} (maxRows : Nat) (lines : α → Nat) (p : α → Bool)
    (hp : (∀ x, p x = true → lines x ≤ maxRows) ∨ (∀ x, p x = true → lines x > maxRows)) : ∀ (xs : List α) (rc : Nat) (page : List α),
    (∀ x ∈ page, lines x ≤ maxRows) →
    ((pagesLoop maxRows lines xs rc page).flatten).filter p = (page ++ xs).filter p := by
  intro xs
  induction xs with
  | nil => intro rc page hpage; simp [pagesLoop]
  | cons x xs ih =>
    intro rc page hpage
    simp only [pagesLoop]
    split
    · rename_i hx
      rw [List.flatten_cons, List.filter_append, ih 0 page hpage]
      rcases hp with hp | hp
      · have : p x = false := by
          cases h : p x
          · rfl
          · have := hp x h; omega
        simp [this]
      · have : page.filter p = [] := by
          rw [List.filter_eq_nil_iff]
          intro y hy hpy
          have := hp y hpy; have := hpage y hy; omega
        simp [this, List.filter_cons]
        split <;> simp
    · rename_i hx
      split
      · rw [List.flatten_cons, List.filter_append, ih _ [x] (by simp; omega)]
        simp
      · rw [ih _ (page ++ [x]) (by
          intro y hy
          rcases List.mem_append.1 hy with hy | hy
          · exact hpage y hy
          · simp at hy; subst hy; omega)]
        simp

theorem pagesLoop_perm {α : Type} (maxRows : Nat) (lines : α → Nat) : ∀ (xs : List α) (rc : Nat) (page : List α),
    ((pagesLoop maxRows lines xs rc page).flatten).Perm (page ++ xs) := by
  intro xs
  induction xs with
  | nil => intro rc page; simp [pagesLoop]
  | cons x xs ih =>
    intro rc page
    simp only [pagesLoop]
    split
    · rw [List.flatten_cons]
      refine ((ih 0 page).append_left [x]).trans ?_
      simpa using (List.perm_middle (a := x) (l₁ := page) (l₂ := xs)).symm
    · split
      · rw [List.flatten_cons]
        simpa using (ih (lines x) [x]).append_left page
      · simpa using ih _ (page ++ [x])

theorem pagesLoop_sound {α : Type} (maxRows : Nat) (lines : α → Nat) : ∀ (xs : List α) (rc : Nat) (page : List α),
    (∀ x ∈ xs, lines x ≤ maxRows) → rowsOf lines page = rc → rc ≤ maxRows →
    (pagesLoop maxRows lines xs rc page).flatten = page ++ xs ∧
    (∀ pg ∈ pagesLoop maxRows lines xs rc page, rowsOf lines pg ≤ maxRows) ∧
    ((page ≠ [] ∨ xs ≠ []) → ∀ pg ∈ pagesLoop maxRows lines xs rc page, pg ≠ []) := by
  intro xs
  induction xs with
  | nil =>
    intro rc page _ hrc hle
    simp only [pagesLoop, List.flatten_cons, List.flatten_nil, List.mem_singleton, forall_eq]
    exact ⟨trivial, by omega, by simp⟩
  | cons x xs ih =>
    intro rc page hx hrc hle
    have h1 := hx x (by simp)
    have h2 : ∀ y ∈ xs, lines y ≤ maxRows := fun y hy => hx y (by simp [hy])
    simp only [pagesLoop]
    rw [if_neg (by omega)]
    split
    · rename_i hgt
      obtain ⟨a, b, c⟩ := ih (lines x) [x] h2 (by simp [rowsOf]) h1
      refine ⟨by simp [a], ?_, ?_⟩
      · intro pg hpg
        rcases List.mem_cons.1 hpg with rfl | hpg
        · omega
        · exact b pg hpg
      · intro _ pg hpg
        rcases List.mem_cons.1 hpg with rfl | hpg
        · rintro rfl
          have : rc = 0 := by rw [← hrc]; rfl
          omega
        · exact c (by simp) pg hpg
    · rename_i hle'
      obtain ⟨a, b, c⟩ := ih (rc + lines x) (page ++ [x]) h2 (by simp [rowsOf] at hrc ⊢; omega) (by omega)
      exact ⟨by simp [a], b, fun _ => c (by simp)⟩

end K431
