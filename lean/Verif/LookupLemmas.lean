import Verif.EncLemmas

/-! # Helper lemma: blanks around a name -/

namespace K431
open Spec

theorem trimSpace_around {U : Unicode} {a w b : Runes} (ha : ∀ c ∈ a, U.isSpace c = true) (hb : ∀ c ∈ b, U.isSpace c = true) (hw : ∀ c ∈ w, U.isSpace c = false) :
    trimSpace U (a ++ w ++ b) = w := by
  have h1 : ∀ (a w : Runes), (∀ c ∈ a, U.isSpace c = true) → (a ++ w).dropWhile U.isSpace = w.dropWhile U.isSpace := by
    intro a w ha
    induction a with
    | nil => rfl
    | cons x xs ih => rw [List.cons_append, List.dropWhile_cons_of_pos (ha x (by simp))]; exact ih (fun c hc => ha c (by simp [hc]))
  unfold trimSpace
  rw [List.append_assoc, h1 a _ ha]
  cases w with
  | nil =>
    have := h1 b [] hb
    simp only [List.append_nil] at this
    simp [this]
  | cons x xs =>
    rw [List.cons_append, List.dropWhile_cons_of_neg (by simp [hw x (by simp)]), ← List.cons_append, List.reverse_append, h1 _ _ (by simpa using hb), dropWhile_none (by intro c hc; exact hw c (List.mem_reverse.1 hc)), List.reverse_reverse]

end K431
