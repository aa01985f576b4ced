import Verif.AskOldLemmas

/-! # C43 for `OldAskAndConfirmPassword` and `AskForPassword` -/

namespace K431

/-- C43 for `OldAskAndConfirmPassword`, what holds: a returned password has the minimum length and was entered twice in a row, as the last two inputs; of the other inputs all have been wiped that have
the minimum length.  If an error is returned, reading the last input failed, and of the earlier inputs all have been wiped that have the minimum length, but possibly the one before.  Entries that are
too short are not wiped (`C43_old_violated`). -/
theorem C43_old_partial (minimumLength : Nat) (inputs : List (Option (List Nat))) (a : Asked) (h : oldAskAndConfirm minimumLength inputs = some a) :
    a.read ≤ inputs.length ∧
    (∀ pw, a.result = .ok pw → minimumLength ≤ pw.length ∧ 2 ≤ a.read ∧ inputs[a.read - 2]? = some (some pw) ∧ inputs[a.read - 1]? = some (some pw) ∧
      ∀ j p, j < a.read → j ≠ a.read - 2 → inputs[j]? = some (some p) → minimumLength ≤ p.length → j ∈ a.wiped) ∧
    (∀ e, a.result = .err e → 1 ≤ a.read ∧ inputs[a.read - 1]? = some none ∧
      ∀ j p, j < a.read - 2 → inputs[j]? = some (some p) → minimumLength ≤ p.length → j ∈ a.wiped) ∧
    a.result ≠ .panic := by
  obtain ⟨d, h1, h2, h3, -⟩ := oldAskLoop_spec minimumLength inputs.length inputs (Nat.le_refl _) 0 [] a h
  have h1 : a.read = d := by omega
  subst h1
  rcases h3 with ⟨pw, f1, f2, f3, f4, f5, f6⟩ | ⟨e, f1, f2, f3, f4⟩
  · refine ⟨h2, ?_, ?_, by rw [f1]; simp⟩
    · intro q hq
      rw [f1] at hq; cases hq
      refine ⟨f2, f3, f4, f5, ?_⟩
      intro j p hj hne hp hlen
      rcases f6 j hj p hp with g | g | g
      · simpa using g
      · exact absurd g hne
      · omega
    · intro e he; rw [f1] at he; cases he
  · refine ⟨h2, ?_, ?_, by rw [f1]; simp⟩
    · intro q hq; rw [f1] at hq; cases hq
    · intro e' _
      refine ⟨f2, f3, ?_⟩
      intro j p hj hp hlen
      rcases f4 j (by omega) p hp with g | g | g
      · simpa using g
      · omega
      · omega

/-- An entry that is too short stays in memory, and so does the first entry if reading the repetition fails. -/
theorem C43_old_violated : (∃ a, oldAskAndConfirm 8 [some (ascii "secret"), some (ascii "correct horse"), some (ascii "correct horse")] = some a ∧ a.result = .ok (ascii "correct horse") ∧ 0 ∉ a.wiped) ∧
    (∃ a, oldAskAndConfirm 8 [some (ascii "correct horse"), none] = some a ∧ a.result = .err .other ∧ 0 ∉ a.wiped) :=
  ⟨⟨⟨.ok (ascii "correct horse"), [2], 3⟩, by decide⟩, ⟨⟨.err .other, [], 2⟩, by decide⟩⟩

/-- `AskForPassword`: the password returned is the first entry that has the minimum length, and the last one read; nil is returned exactly if reading failed before. -/
theorem C43_ask (minimumLength : Nat) (inputs : List (Option (List Nat))) (r : Option (List Nat)) (read : Nat) :
    askForPassword minimumLength inputs = some (r, read) ↔
      0 < read ∧ inputs[read - 1]? = some r ∧ (∀ pw, r = some pw → minimumLength ≤ pw.length) ∧ ∀ j < read - 1, ∃ p, inputs[j]? = some (some p) ∧ p.length < minimumLength := by
  induction inputs generalizing read with
  | nil => simp [askForPassword]
  | cons x xs ih =>
    rcases x with _ | p
    · simp only [askForPassword, Option.some.injEq, Prod.mk.injEq]
      constructor
      · rintro ⟨rfl, rfl⟩
        exact ⟨by omega, rfl, by simp, fun j hj => by omega⟩
      · rintro ⟨h1, h2, h3, h4⟩
        by_cases hr : read = 1
        · subst hr; simp at h2; exact ⟨h2, rfl⟩
        · obtain ⟨p, hp, -⟩ := h4 0 (by omega)
          simp at hp
    · rw [askForPassword]
      by_cases hs : p.length < minimumLength
      · rw [if_pos hs]
        constructor
        · intro h
          rcases hx : askForPassword minimumLength xs with _ | ⟨r', n⟩
          · rw [hx] at h; cases h
          · rw [hx] at h
            simp only [Option.map_some, Option.some.injEq, Prod.mk.injEq] at h
            obtain ⟨rfl, rfl⟩ := h
            obtain ⟨h1, h2, h3, h4⟩ := (ih n).1 hx
            refine ⟨by omega, ?_, h3, ?_⟩
            · rw [show n + 1 - 1 = (n - 1) + 1 by omega, List.getElem?_cons_succ]; exact h2
            · intro j hj
              cases j with
              | zero => exact ⟨p, rfl, hs⟩
              | succ j => rw [List.getElem?_cons_succ]; exact h4 j (by omega)
        · rintro ⟨h1, h2, h3, h4⟩
          by_cases hr : read = 1
          · subst hr
            simp at h2
            have := h3 p h2.symm
            omega
          · have := (ih (read - 1)).2 ⟨by omega, by
                rw [show read - 1 = (read - 1 - 1) + 1 by omega, List.getElem?_cons_succ] at h2; exact h2, h3, fun j hj => by
                have := h4 (j + 1) (by omega); rw [List.getElem?_cons_succ] at this; exact this⟩
            rw [this]
            simp only [Option.map_some, Option.some.injEq, Prod.mk.injEq, true_and]
            omega
      · rw [if_neg hs]
        simp only [Option.some.injEq, Prod.mk.injEq]
        constructor
        · rintro ⟨rfl, rfl⟩
          exact ⟨by omega, rfl, fun pw h => by cases h; omega, fun j hj => by omega⟩
        · rintro ⟨h1, h2, h3, h4⟩
          by_cases hr : read = 1
          · subst hr; simp at h2; exact ⟨h2, rfl⟩
          · obtain ⟨q, hq, hq2⟩ := h4 0 (by omega)
            simp at hq
            subst hq
            omega

/-- non-vacuity -/
example : oldAskAndConfirm 3 [some [1], some [1, 2, 3], some [1, 2, 4], some [7, 8, 9], some [7, 8, 9], none] = some ⟨.ok [7, 8, 9], [1, 2, 4], 5⟩ ∧
    askForPassword 3 [some [1], some [1, 2, 3]] = some (some [1, 2, 3], 2) ∧ askForPassword 3 [some [1], none] = some (none, 2) := by decide

end K431
