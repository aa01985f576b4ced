import Verif.Functions

/-! # Helper lemmas: lines without the blanks at their ends -/

namespace K431

/-- what is left of a line without the blanks at its end begins like the line -/
theorem trimRight_keeps {U : Unicode} {l id : Runes} (hs : ∀ c ∈ id, U.isSpace c = false) (h : l.takeWhile (fun c => c != 32) = id) :
    (trimRight U.isSpace l).takeWhile (fun c => c != 32) = id := by
  have hl : l = id ++ l.dropWhile (fun c => c != 32) := by rw [← h, List.takeWhile_append_dropWhile]
  have hne : ∀ c ∈ id, (c != 32) = true := by
    intro c hc
    rw [← h] at hc
    exact (List.all_eq_true.1 List.all_takeWhile) c hc
  generalize hrest : l.dropWhile (fun c => c != 32) = rest at hl
  have hhead : ∀ c ∈ rest.head?, c = 32 := by
    intro c hc
    rw [← hrest] at hc
    have := List.head?_dropWhile_not (fun c : Int => c != 32) l
    rw [Option.mem_def.1 hc] at this
    simpa using this
  have htrim : ∃ p, p <+: rest ∧ trimRight U.isSpace l = id ++ p := by
    refine ⟨trimRight U.isSpace rest, ?_, ?_⟩
    · unfold trimRight
      have := List.dropWhile_suffix (l := rest.reverse) U.isSpace
      rw [← List.reverse_prefix, List.reverse_reverse] at this
      exact this
    · unfold trimRight
      rw [hl, List.reverse_append, List.dropWhile_append]
      split
      · rename_i he
        rw [List.isEmpty_iff] at he
        rw [he]
        have hlast : id.reverse.dropWhile U.isSpace = id.reverse := by
          have hs' : ∀ c ∈ id.reverse, U.isSpace c = false := fun c hc => hs c (List.mem_reverse.1 hc)
          generalize id.reverse = d at hs'
          cases d with
          | nil => rfl
          | cons c cs => rw [List.dropWhile_cons, hs' c List.mem_cons_self]; rfl
        rw [hlast, List.reverse_reverse]
        simp
      · rw [List.reverse_append, List.reverse_reverse]
  obtain ⟨p, hp, ht⟩ := htrim
  rw [ht, List.takeWhile_append_of_pos hne]
  have : p.takeWhile (fun c => c != 32) = [] := by
    cases p with
    | nil => rfl
    | cons c cs =>
      obtain ⟨t, rfl⟩ := hp
      have : c = 32 := hhead c rfl
      subst this
      rfl
  rw [this, List.append_nil]

end K431
