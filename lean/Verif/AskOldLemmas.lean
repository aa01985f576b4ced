import Verif.AskOld

/-! # Lemmas about the loop of `OldAskAndConfirmPassword` -/

namespace K431

theorem oldAskLoop_spec (n : Nat) : ∀ (m : Nat) (inputs : List (Option (List Nat))), inputs.length ≤ m → ∀ (i : Nat) (w : List Nat) (a : Asked), oldAskLoop n i inputs w = some a →
    ∃ done, a.read = i + done ∧ done ≤ inputs.length ∧
      ((∃ pw, a.result = .ok pw ∧ n ≤ pw.length ∧ 2 ≤ done ∧ inputs[done - 2]? = some (some pw) ∧ inputs[done - 1]? = some (some pw) ∧
          ∀ j, j < done → ∀ p, inputs[j]? = some (some p) → i + j ∈ a.wiped ∨ j = done - 2 ∨ p.length < n) ∨
        (∃ e, a.result = .err e ∧ 1 ≤ done ∧ inputs[done - 1]? = some none ∧
          ∀ j, j + 1 < done → ∀ p, inputs[j]? = some (some p) → i + j ∈ a.wiped ∨ j = done - 2 ∨ p.length < n)) ∧
      (∀ j ∈ w, j ∈ a.wiped) := by
  intro m
  induction m with
  | zero =>
    intro inputs h i w a ha
    have : inputs = [] := List.length_eq_zero_iff.1 (by omega)
    subst this
    simp [oldAskLoop] at ha
  | succ m ih =>
    intro inputs h i w a ha
    rcases inputs with _ | ⟨_ | p1, _ | ⟨x, r⟩⟩
    · simp [oldAskLoop] at ha
    · simp only [oldAskLoop, Option.some.injEq] at ha
      subst ha
      exact ⟨1, rfl, by simp, .inr ⟨_, rfl, by simp, rfl, fun j hj => by omega⟩, fun j hj => hj⟩
    · simp only [oldAskLoop, Option.some.injEq] at ha
      subst ha
      exact ⟨1, rfl, by simp, .inr ⟨_, rfl, by simp, rfl, fun j hj => by omega⟩, fun j hj => hj⟩
    · simp [oldAskLoop] at ha
    · rw [oldAskLoop.eq_def] at ha
      dsimp only at ha
      by_cases hs : p1.length < n
      · rw [if_pos hs] at ha
        obtain ⟨d, e1, e2, e3, e4⟩ := ih (x :: r) (by simp at h ⊢; omega) (i + 1) w a ha
        refine ⟨d + 1, by omega, by simp at e2 ⊢; omega, ?_, e4⟩
        rcases e3 with ⟨pw, f1, f2, f3, f4, f5, f6⟩ | ⟨e, f1, f2, f3, f4⟩
        · refine .inl ⟨pw, f1, f2, by omega, ?_, ?_, ?_⟩
          · rw [show d + 1 - 2 = (d - 2) + 1 by omega, List.getElem?_cons_succ]; exact f4
          · rw [show d + 1 - 1 = (d - 1) + 1 by omega, List.getElem?_cons_succ]; exact f5
          · intro j hj p hp
            cases j with
            | zero => simp at hp; subst hp; exact .inr (.inr hs)
            | succ j =>
              rw [List.getElem?_cons_succ] at hp
              rcases f6 j (by omega) p hp with g | g | g
              · left; rw [show i + (j + 1) = i + 1 + j by omega]; exact g
              · right; left; omega
              · exact .inr (.inr g)
        · refine .inr ⟨e, f1, by omega, ?_, ?_⟩
          · rw [show d + 1 - 1 = (d - 1) + 1 by omega, List.getElem?_cons_succ]; exact f3
          · intro j hj p hp
            cases j with
            | zero => simp at hp; subst hp; exact .inr (.inr hs)
            | succ j =>
              rw [List.getElem?_cons_succ] at hp
              rcases f4 j (by omega) p hp with g | g | g
              · left; rw [show i + (j + 1) = i + 1 + j by omega]; exact g
              · right; left; omega
              · exact .inr (.inr g)
      · rw [if_neg hs] at ha
        rcases x with _ | p2
        · simp only [Option.some.injEq] at ha
          subst ha
          exact ⟨2, rfl, by simp, .inr ⟨_, rfl, by simp, rfl, fun j hj p _ => .inr (.inl (by omega))⟩, fun j hj => hj⟩
        · simp only at ha
          by_cases he : p1 = p2
          · rw [if_pos he] at ha
            simp only [Option.some.injEq] at ha
            subst ha he
            refine ⟨2, rfl, by simp, .inl ⟨p1, rfl, by omega, by omega, rfl, rfl, ?_⟩, fun j hj => by simp [hj]⟩
            intro j hj p _
            rcases (show j = 0 ∨ j = 1 by omega) with rfl | rfl
            · exact .inr (.inl rfl)
            · left; simp
          · rw [if_neg he] at ha
            obtain ⟨d, e1, e2, e3, e4⟩ := ih r (by simp at h; omega) (i + 2) _ a ha
            have w1 := e4 i (by simp)
            have w2 := e4 (i + 1) (by simp)
            refine ⟨d + 2, by omega, by simp; omega, ?_, fun j hj => e4 j (by simp [hj])⟩
            rcases e3 with ⟨pw, f1, f2, f3, f4, f5, f6⟩ | ⟨e, f1, f2, f3, f4⟩
            · refine .inl ⟨pw, f1, f2, by omega, ?_, ?_, ?_⟩
              · rw [show d + 2 - 2 = (d - 2) + 1 + 1 by omega, List.getElem?_cons_succ, List.getElem?_cons_succ]; exact f4
              · rw [show d + 2 - 1 = (d - 1) + 1 + 1 by omega, List.getElem?_cons_succ, List.getElem?_cons_succ]; exact f5
              · intro j hj p hp
                rcases j with _ | _ | j
                · exact .inl w1
                · exact .inl w2
                · rw [List.getElem?_cons_succ, List.getElem?_cons_succ] at hp
                  rcases f6 j (by omega) p hp with g | g | g
                  · left; rw [show i + (j + 1 + 1) = i + 2 + j by omega]; exact g
                  · right; left; omega
                  · exact .inr (.inr g)
            · refine .inr ⟨e, f1, by omega, ?_, ?_⟩
              · rw [show d + 2 - 1 = (d - 1) + 1 + 1 by omega, List.getElem?_cons_succ, List.getElem?_cons_succ]; exact f3
              · intro j hj p hp
                rcases j with _ | _ | j
                · exact .inl w1
                · exact .inl w2
                · rw [List.getElem?_cons_succ, List.getElem?_cons_succ] at hp
                  rcases f4 j (by omega) p hp with g | g | g
                  · left; rw [show i + (j + 1 + 1) = i + 2 + j by omega]; exact g
                  · right; left; omega
                  · exact .inr (.inr g)

end K431
