import Verif.Dice

/-!
# C112: keys made with dice
-/

namespace K431.Dice

/-- `allThrows n` is what it is called, each sequence once -/
theorem mem_allThrows (n : Nat) (ts : List Nat) : ts ∈ allThrows n ↔ ts.length = n ∧ ∀ t ∈ ts, 1 ≤ t ∧ t ≤ 6 := by
  induction n generalizing ts with
  | zero => simp [allThrows]; intro h; subst h; simp
  | succ n ih =>
    cases ts with
    | nil => simp [allThrows]
    | cons t ts =>
      simp only [allThrows, List.mem_flatMap, List.mem_map, List.cons.injEq, ih, List.length_cons, Nat.add_right_cancel_iff, List.mem_cons, List.not_mem_nil, or_false, forall_eq_or_imp]
      constructor
      · rintro ⟨a, ha, b, hb, rfl, rfl⟩
        exact ⟨hb.1, by omega, hb.2⟩
      · rintro ⟨h1, h2, h3⟩
        exact ⟨t, by omega, ts, ⟨h1, h3⟩, rfl, rfl⟩

theorem nodup_allThrows (n : Nat) : (allThrows n).Nodup := by
  induction n with
  | zero => simp [allThrows]
  | succ n ih =>
    rw [allThrows, List.Nodup, List.pairwise_flatMap]
    refine ⟨fun a _ => ?_, ?_⟩
    · rw [List.pairwise_map]
      exact List.Pairwise.imp (fun h e => h (by simpa using e)) ih
    · refine List.Pairwise.imp (R := fun a b => a ≠ b) ?_ (by decide)
      intro a b hab x hx y hy he
      simp only [List.mem_map] at hx hy
      obtain ⟨u, -, rfl⟩ := hx
      obtain ⟨v, -, rfl⟩ := hy
      simp only [List.cons.injEq] at he
      exact hab he.1

theorem length_allThrows (n : Nat) : (allThrows n).length = 6 ^ n := by
  induction n with
  | zero => rfl
  | succ n ih => simp [allThrows, ih, Nat.pow_succ]; omega

theorem ways_succ (f : List Nat → Option Nat) (n x : Nat) :
    ways f (n + 1) x = ways (fun ts => f (1 :: ts)) n x + ways (fun ts => f (2 :: ts)) n x + ways (fun ts => f (3 :: ts)) n x + ways (fun ts => f (4 :: ts)) n x +
      ways (fun ts => f (5 :: ts)) n x + ways (fun ts => f (6 :: ts)) n x := by
  simp only [ways, allThrows, List.flatMap_cons, List.flatMap_nil, List.append_nil, List.countP_append, List.countP_map, Function.comp_def]
  omega

theorem ways_const (n x y : Nat) : ways (fun _ => some y) n x = if y = x then 6 ^ n else 0 := by
  unfold ways
  by_cases h : y = x
  · subst h
    simp [length_allThrows]
  · simp [h]

/-- one of the numbers of the table comes up after the first two throws -/
theorem table_once (n x : Nat) (hx : x < 26) :
    ((if entry 1 1 = x then 6 ^ n else 0) + (if entry 1 2 = x then 6 ^ n else 0) + (if entry 1 3 = x then 6 ^ n else 0) + (if entry 1 4 = x then 6 ^ n else 0) + (if entry 1 5 = x then 6 ^ n else 0) + (if entry 1 6 = x then 6 ^ n else 0)) +
    ((if entry 2 1 = x then 6 ^ n else 0) + (if entry 2 2 = x then 6 ^ n else 0) + (if entry 2 3 = x then 6 ^ n else 0) + (if entry 2 4 = x then 6 ^ n else 0) + (if entry 2 5 = x then 6 ^ n else 0) + (if entry 2 6 = x then 6 ^ n else 0)) +
    ((if entry 3 1 = x then 6 ^ n else 0) + (if entry 3 2 = x then 6 ^ n else 0) + (if entry 3 3 = x then 6 ^ n else 0) + (if entry 3 4 = x then 6 ^ n else 0) + (if entry 3 5 = x then 6 ^ n else 0) + (if entry 3 6 = x then 6 ^ n else 0)) +
    ((if entry 4 1 = x then 6 ^ n else 0) + (if entry 4 2 = x then 6 ^ n else 0) + (if entry 4 3 = x then 6 ^ n else 0) + (if entry 4 4 = x then 6 ^ n else 0) + (if entry 4 5 = x then 6 ^ n else 0) + (if entry 4 6 = x then 6 ^ n else 0)) +
    ((if entry 5 1 = x then 6 ^ n else 0) + (if entry 5 2 = x then 6 ^ n else 0)) = 6 ^ n := by
  generalize 6 ^ n = p
  simp only [entry]
  rcases x with _ | _ | _ | _ | _ | _ | _ | _ | _ | _ | _ | _ | _ | _ | _ | _ | _ | _ | _ | _ | _ | _ | _ | _ | _ | _ | x <;> first | omega | simp

theorem bothAgain_succ (n x : Nat) (hx : x < 26) : ways bothAgain (n + 2) x = ways bothAgain (n + 1) x + 4 * ways bothAgain n x + 6 ^ n := by
  have h6 : ways (fun ts => bothAgain (6 :: ts)) (n + 1) x = ways bothAgain (n + 1) x := by
    rw [ways_succ, ways_succ]
    simp [bothAgain]
  rw [ways_succ, h6]
  generalize ways bothAgain (n + 1) x = w
  have e := table_once n x hx
  have e2 : ways bothAgain n x = ways (fun ts => bothAgain ts) n x := rfl
  rw [e2]
  simp only [ways_succ _ n, bothAgain, ways_const, show ¬ (1 : Nat) = 6 by decide, show ¬ (2 : Nat) = 6 by decide, show ¬ (3 : Nat) = 6 by decide, show ¬ (4 : Nat) = 6 by decide,
    show ¬ (5 : Nat) = 6 by decide, show ¬ (1 : Nat) = 5 by decide, show ¬ (2 : Nat) = 5 by decide, show ¬ (3 : Nat) = 5 by decide, show ¬ (4 : Nat) = 5 by decide, false_and, if_false, true_and,
    show ¬ (2 : Nat) < 1 by decide, show ¬ (2 : Nat) < 2 by decide, show (2 : Nat) < 3 by decide, show (2 : Nat) < 4 by decide, show (2 : Nat) < 5 by decide, show (2 : Nat) < 6 by decide, if_true]
  omega

/-- **C112**, full statement: made with dice in the way described in the README, each number is equally likely: equally many sequences of throws lead to it. -/
def C112_Statement : Prop := ∀ (n x y : Nat), x < 26 → y < 26 → ways asWritten n x = ways asWritten n y

/-- The statement is false, already for three throws: 24 is the result of 11 of the 216 sequences, 0 of 7. -/
theorem C112_violated : ¬ C112_Statement := fun h => absurd (h 3 24 0 (by decide) (by decide)) (by decide)

/-- **C112**, what holds: if both throws are discarded, each number is equally likely.  Missing: the procedure as it is written, with "you re-roll until you get either 1 or 2" after a 5. -/
theorem C112_partial (n x y : Nat) (hx : x < 26) (hy : y < 26) : ways bothAgain n x = ways bothAgain n y := by
  suffices h : ways bothAgain n x = ways bothAgain n y ∧ ways bothAgain (n + 1) x = ways bothAgain (n + 1) y from h.1
  induction n with
  | zero => exact ⟨rfl, by simp [ways, allThrows, bothAgain]⟩
  | succ n ih => exact ⟨ih.2, by rw [bothAgain_succ n x hx, bothAgain_succ n y hy, ih.1, ih.2]⟩

/-- the results are the numbers 0 … 25 -/
theorem bothAgain_lt (ts : List Nat) (h : ∀ t ∈ ts, 1 ≤ t ∧ t ≤ 6) (x : Nat) (hx : bothAgain ts = some x) : x < 26 := by
  fun_induction bothAgain ts with
  | case1 => cases hx
  | case2 => cases hx
  | case3 b ts ih => exact ih (fun t ht => h t (List.mem_cons_of_mem _ ht)) hx
  | case4 a b ts ha hb ih => exact ih (fun t ht => h t (by simp [ht])) hx
  | case5 a b ts ha hb =>
    simp only [Option.some.injEq, entry] at hx
    have h1 := h a (by simp)
    have h2 := h b (by simp)
    omega

/-- not vacuous: two throws lead to each number once, three to each seven times -/
example : (∀ x < 26, ways bothAgain 2 x = 1) ∧ ∀ x < 26, ways bothAgain 3 x = 7 := by decide +kernel

/-- The README's examples: 3 and 4 give 15, 5 and 1 give 24, 5 and 2 give 25; after a 6 one rolls again. -/
example : asWritten [3, 4] = some 15 ∧ asWritten [5, 1] = some 24 ∧ asWritten [5, 2] = some 25 ∧ asWritten [6, 3, 4] = some 15 ∧ asWritten [5, 6, 3, 1] = some 24 := by decide

/-! ## How wrong it is -/

theorem afterFive_succ (n : Nat) : ways afterFive (n + 1) 24 = 6 ^ n + 4 * ways afterFive n 24 := by
  rw [ways_succ]
  have e2 : ∀ f : List Nat → Option Nat, ways (fun ts => f ts) n 24 = ways f n 24 := fun _ => rfl
  simp only [afterFive, ways_const, entry, show (1 : Nat) ≤ 2 by decide, show (2 : Nat) ≤ 2 by decide, show ¬ (3 : Nat) ≤ 2 by decide, show ¬ (4 : Nat) ≤ 2 by decide,
    show ¬ (5 : Nat) ≤ 2 by decide, show ¬ (6 : Nat) ≤ 2 by decide, if_true, if_false, e2]
  simp
  omega

theorem asWritten_24 (n : Nat) : ways asWritten (n + 2) 24 = ways asWritten (n + 1) 24 + ways afterFive (n + 1) 24 := by
  have h6 : ways (fun ts => asWritten (6 :: ts)) (n + 1) 24 = ways asWritten (n + 1) 24 := by
    rw [ways_succ, ways_succ]
    simp [asWritten]
  have h5 : ways (fun ts => asWritten (5 :: ts)) (n + 1) 24 = ways afterFive (n + 1) 24 := by
    rw [ways_succ, ways_succ]
    simp [asWritten]
  rw [ways_succ, h6, h5]
  simp only [ways_succ _ n, asWritten, show ¬ (1 : Nat) = 6 by decide, show ¬ (2 : Nat) = 6 by decide, show ¬ (3 : Nat) = 6 by decide, show ¬ (4 : Nat) = 6 by decide,
    show ¬ (1 : Nat) = 5 by decide, show ¬ (2 : Nat) = 5 by decide, show ¬ (3 : Nat) = 5 by decide, show ¬ (4 : Nat) = 5 by decide, if_false, ways_const, entry]
  simp
  omega

theorem asWritten_low (n x : Nat) (hx : x < 24) : ways asWritten (n + 2) x = ways asWritten (n + 1) x + 6 ^ n := by
  have h6 : ways (fun ts => asWritten (6 :: ts)) (n + 1) x = ways asWritten (n + 1) x := by
    rw [ways_succ, ways_succ]
    simp [asWritten]
  have h5 : ways (fun ts => asWritten (5 :: ts)) (n + 1) x = 0 := by
    have : ∀ ts, (afterFive ts == some x) = false := by
      intro ts
      fun_induction afterFive ts with
      | case1 => rfl
      | case2 b ts hb => simp [entry]; omega
      | case3 b ts hb ih => exact ih
    unfold ways
    rw [List.countP_eq_zero]
    intro ts _
    cases ts with
    | nil => simp [asWritten]
    | cons b ts => simp only [asWritten, show ¬ (5 : Nat) = 6 by decide, if_false, if_true, this]; simp
  rw [ways_succ, h6, h5]
  have e := table_once n x (by omega)
  simp only [ways_succ _ n, asWritten, show ¬ (1 : Nat) = 6 by decide, show ¬ (2 : Nat) = 6 by decide, show ¬ (3 : Nat) = 6 by decide, show ¬ (4 : Nat) = 6 by decide,
    show ¬ (1 : Nat) = 5 by decide, show ¬ (2 : Nat) = 5 by decide, show ¬ (3 : Nat) = 5 by decide, show ¬ (4 : Nat) = 5 by decide, if_false, ways_const]
  have e5 : (if entry 5 1 = x then 6 ^ n else 0) + (if entry 5 2 = x then 6 ^ n else 0) = 0 := by
    have e1 : entry 5 1 = 24 := rfl
    have e2 : entry 5 2 = 25 := rfl
    rw [if_neg (by rw [e1]; omega), if_neg (by rw [e2]; omega)]
  omega

/-- The procedure as it is written gives 24, the letter Y, more often than any of the numbers 0 … 23, whatever the number of throws (three or more). -/
theorem C112_bias (n x : Nat) (hx : x < 24) : ways asWritten (n + 3) x < ways asWritten (n + 3) 24 := by
  suffices h : ways asWritten (n + 2) x ≤ ways asWritten (n + 2) 24 ∧ ways asWritten (n + 3) x < ways asWritten (n + 3) 24 from h.2
  have a1 : ∀ k, 0 < ways afterFive (k + 1) 24 := fun k => by rw [afterFive_succ]; have : 0 < 6 ^ k := Nat.pow_pos (by decide); omega
  have base : ∀ y, ways asWritten 1 y = 0 := fun y => by simp [ways, allThrows, asWritten]
  have two : ways asWritten 2 x ≤ ways asWritten 2 24 := by
    rw [asWritten_low 0 x hx, asWritten_24 0, base, base, afterFive_succ]
    omega
  have step : ∀ k, ways asWritten (k + 2) x ≤ ways asWritten (k + 2) 24 → ways asWritten (k + 3) x < ways asWritten (k + 3) 24 := by
    intro k hk
    have h1 : ways asWritten (k + 3) x = ways asWritten (k + 2) x + 6 ^ (k + 1) := asWritten_low (k + 1) x hx
    have h2 : ways asWritten (k + 3) 24 = ways asWritten (k + 2) 24 + ways afterFive (k + 2) 24 := asWritten_24 (k + 1)
    have h3 : ways afterFive (k + 2) 24 = 6 ^ (k + 1) + 4 * ways afterFive (k + 1) 24 := afterFive_succ (k + 1)
    have := a1 k
    omega
  induction n with
  | zero => exact ⟨two, step 0 two⟩
  | succ n ih => exact ⟨Nat.le_of_lt ih.2, step (n + 1) (Nat.le_of_lt ih.2)⟩

theorem afterFive_closed (n : Nat) : 2 * ways afterFive n 24 + 4 ^ n = 6 ^ n := by
  induction n with
  | zero => decide
  | succ n ih => rw [afterFive_succ, Nat.pow_succ, Nat.pow_succ]; omega

/-- With many throws nearly three times as often: up to a term that is small against the number of all sequences, which is 6ⁿ⁺¹, the sequences that lead to 24 are three times those that lead to `x`. -/
theorem C112_threefold (n x : Nat) (hx : x < 24) : 3 * ways asWritten (n + 1) 24 + 2 * 4 ^ n = 9 * ways asWritten (n + 1) x + 2 := by
  have base : ∀ y, ways asWritten 1 y = 0 := fun y => by simp [ways, allThrows, asWritten]
  induction n with
  | zero => rw [base, base]
  | succ n ih =>
    have h1 : ways asWritten (n + 1 + 1) x = ways asWritten (n + 1) x + 6 ^ n := asWritten_low n x hx
    have h2 : ways asWritten (n + 1 + 1) 24 = ways asWritten (n + 1) 24 + ways afterFive (n + 1) 24 := asWritten_24 n
    have h3 := afterFive_closed (n + 1)
    rw [Nat.pow_succ, Nat.pow_succ] at h3
    rw [h1, h2, Nat.pow_succ]
    omega

end K431.Dice
