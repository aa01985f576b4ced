import Verif.ImpLemmas
import Verif.EncLemmas
import Mathlib.Data.Fintype.Card
import Mathlib.Data.Fintype.BigOperators

/-! # Helper lemmas: `NewKey` can always return as long as there is a free id -/

namespace K431
open Spec

theorem int31nLoop_append {n mx : Nat} {s : Tape} : ∀ {t t' : Tape} {x : Nat}, int31nLoop n mx t = some (x, t') →
    int31nLoop n mx (t ++ s) = some (x, t' ++ s) := by
  intro t
  induction t with
  | nil => intro t' x h; cases h
  | cons v t ih =>
    intro t' x h
    simp only [int31nLoop, List.cons_append] at h ⊢
    split at h
    · rename_i hv; rw [if_pos hv]; exact ih h
    · rename_i hv
      rw [if_neg hv]
      simp only [Option.some.injEq, Prod.mk.injEq] at h
      simp [h.1, h.2]

theorem intn_small {n : Nat} (hn : n &&& (n - 1) ≠ 0) (hl : n ≤ 2 ^ 31 - 1) (t : Tape) :
    intn n t = int31nLoop n (2 ^ 31 - 1 - 2 ^ 31 % n) t := by
  unfold intn int31n
  rw [if_pos hl, if_neg hn]

theorem intns_append {n : Nat} (hn : n &&& (n - 1) ≠ 0) (hl : n ≤ 2 ^ 31 - 1) {s : Tape} : ∀ {k : Nat} {t t' : Tape}
    {xs : List Nat}, intns n k t = some (xs, t') → intns n k (t ++ s) = some (xs, t' ++ s) := by
  intro k
  induction k with
  | zero => intro t t' xs h; simp [intns] at h ⊢; obtain ⟨rfl, rfl⟩ := h; simp
  | succ k ih =>
    intro t t' xs h
    simp only [intns] at h ⊢
    rcases hi : intn n t with _ | ⟨x, t1⟩
    · rw [hi] at h; cases h
    · rw [hi] at h
      simp only at h
      rcases hj : intns n k t1 with _ | ⟨ys, t2⟩
      · rw [hj] at h; cases h
      · rw [hj] at h
        simp only [Option.some.injEq, Prod.mk.injEq] at h
        obtain ⟨rfl, rfl⟩ := h
        rw [intn_small hn hl] at hi ⊢
        rw [int31nLoop_append hi]
        simp only
        rw [ih hj]

/-- A word giving the value `x`. -/
def wordFor (x : Nat) : Nat := x <<< 32

theorem int31_wordFor {x : Nat} (h : x < 2 ^ 31) : int31 (wordFor x) = x := by
  unfold int31 int63 wordFor
  have h1 : x <<< 32 &&& (2 ^ 64 - 1 - 2 ^ 63) = x <<< 32 := by
    rw [show (2 : Nat) ^ 64 - 1 - 2 ^ 63 = 2 ^ 63 - 1 from by decide, Nat.and_two_pow_sub_one_eq_mod]
    apply Nat.mod_eq_of_lt
    rw [Nat.shiftLeft_eq]
    omega
  rw [h1, Nat.shiftLeft_shiftRight]

theorem intn26_word {x : Nat} (h : x < 26) (t : Tape) : intn 26 (wordFor x :: t) = some (x, t) := by
  rw [intn_small (by decide) (by decide)]
  simp only [int31nLoop]
  rw [int31_wordFor (by omega), if_neg (by omega), Nat.mod_eq_of_lt h]

theorem intn26_complete : ∀ (t : Tape), intn 26 t = none → intn 26 (t ++ [wordFor 0]) = some (0, []) := by
  intro t
  rw [intn_small (by decide) (by decide), intn_small (by decide) (by decide)]
  induction t with
  | nil => intro _; decide
  | cons v t ih =>
    intro h
    simp only [int31nLoop, List.cons_append] at h ⊢
    split at h
    · rename_i hv; rw [if_pos hv]; exact ih h
    · cases h

theorem intns26_words : ∀ (xs : List Nat) (t : Tape), (∀ x ∈ xs, x < 26) →
    intns 26 xs.length (xs.map wordFor ++ t) = some (xs, t) := by
  intro xs
  induction xs with
  | nil => intro t _; rfl
  | cons x xs ih =>
    intro t h
    simp only [List.length_cons, intns, List.map_cons, List.cons_append]
    rw [intn26_word (h x (by simp))]
    simp only
    rw [ih t (fun y hy => h y (by simp [hy]))]

theorem intns26_complete : ∀ (k : Nat) (t : Tape), intns 26 k t = none →
    ∃ s xs, intns 26 k (t ++ s) = some (xs, []) := by
  intro k
  induction k with
  | zero => intro t h; cases h
  | succ k ih =>
    intro t h
    simp only [intns] at h ⊢
    rcases hi : intn 26 t with _ | ⟨x, t1⟩
    · have h1 := intn26_complete t hi
      rcases hk : intns 26 k [] with _ | ⟨ys, t2⟩
      · obtain ⟨s, xs, hs⟩ := ih [] hk
        refine ⟨wordFor 0 :: s, 0 :: xs, ?_⟩
        have h2 : intn 26 (t ++ wordFor 0 :: s) = some (0, s) := by
          have := h1
          rw [intn_small (by decide) (by decide)] at this ⊢
          have := int31nLoop_append (s := s) this
          simpa using this
        rw [h2]
        simp only [List.nil_append] at hs
        simp only [hs]
      · refine ⟨[wordFor 0], 0 :: ys, ?_⟩
        rw [h1]
        simp only [hk]
        have := (intns_spec (by decide) hk).2.2
        simp only [List.length_nil] at this
        have : t2 = [] := by apply List.eq_nil_of_length_eq_zero; omega
        rw [this]
    · rw [hi] at h
      simp only at h
      rcases hk : intns 26 k t1 with _ | ⟨ys, t2⟩
      · obtain ⟨s, xs, hs⟩ := ih t1 hk
        refine ⟨s, x :: xs, ?_⟩
        have h2 : intn 26 (t ++ s) = some (x, t1 ++ s) := by
          rw [intn_small (by decide) (by decide)] at hi ⊢
          exact int31nLoop_append hi
        rw [h2]
        simp only [hs]
      · rw [hk] at h; cases h

theorem newIdLoop_append {U : Unicode} {keys : List Key} {g : Nat} {s : Tape} : ∀ {fuel fuel' : Nat} {t t' : Tape} {id : Runes},
    newIdLoop U keys g fuel t = some (id, t') → fuel ≤ fuel' → newIdLoop U keys g fuel' (t ++ s) = some (id, t' ++ s) := by
  intro fuel
  induction fuel with
  | zero => intro fuel' t t' id h; cases h
  | succ fuel ih =>
    intro fuel' t t' id h hf
    obtain ⟨f, rfl⟩ : ∃ f, fuel' = f + 1 := ⟨fuel' - 1, by omega⟩
    simp only [newIdLoop] at h ⊢
    rcases hi : intns 26 g t with _ | ⟨xs, t1⟩
    · rw [hi] at h; cases h
    · rw [hi] at h
      rw [intns_append (by decide) (by decide) hi]
      simp only at h ⊢
      split at h
      · rename_i hc; rw [if_pos hc]; exact ih h (by omega)
      · rename_i hc
        rw [if_neg hc]
        simp only [Option.some.injEq, Prod.mk.injEq] at h
        simp [h.1, h.2]

theorem newIdLoop_complete {U : Unicode} {keys : List Key} {g : Nat} (hg : g ≠ 0) (w : List Nat) (hw : w.length = g)
    (hw' : ∀ x ∈ w, x < 26) (hfree : ¬ containsKeyId U keys (some (w.map letterOf)) = true) : ∀ (n : Nat) (t : Tape), t.length ≤ n →
    ∃ s id t', newIdLoop U keys g (n + 2) (t ++ s) = some (id, t') := by
  intro n
  induction n with
  | zero =>
    intro t ht
    have : t = [] := List.eq_nil_of_length_eq_zero (by omega)
    subst this
    refine ⟨w.map wordFor, w.map letterOf, [], ?_⟩
    have h := intns26_words w [] hw'
    rw [hw, List.append_nil] at h
    simp only [List.nil_append, newIdLoop, h]
    rw [if_neg hfree]
  | succ n ih =>
    intro t ht
    rcases hi : intns 26 g t with _ | ⟨xs, t1⟩
    · obtain ⟨s, xs, hs⟩ := intns26_complete g t hi
      have h := intns26_words w [] hw'
      rw [hw, List.append_nil] at h
      have hs' := intns_append (by decide) (by decide) (s := w.map wordFor) hs
      refine ⟨s ++ w.map wordFor, ?_⟩
      by_cases hc : containsKeyId U keys (some (xs.map letterOf)) = true
      · refine ⟨w.map letterOf, [], ?_⟩
        rw [← List.append_assoc]
        simp only [newIdLoop, hs', hc, if_true, List.nil_append, h]
        rw [if_neg hfree]
      · refine ⟨xs.map letterOf, [] ++ w.map wordFor, ?_⟩
        rw [← List.append_assoc]
        simp only [newIdLoop, hs']
        rw [if_neg hc]
    · have hlt := (intns_spec (by decide) hi).2.2
      by_cases hc : containsKeyId U keys (some (xs.map letterOf)) = true
      · obtain ⟨s, id, t', h⟩ := ih t1 (by omega)
        refine ⟨s, id, t', ?_⟩
        rw [newIdLoop, intns_append (by decide) (by decide) hi]
        simp only
        rw [if_pos hc]
        exact h
      · refine ⟨[], xs.map letterOf, t1, ?_⟩
        rw [List.append_nil, newIdLoop, hi]
        simp only
        rw [if_neg hc]

/-- If there are fewer keys than ids, some id is free. -/
theorem free_id (U : Unicode) (hU : U.Lawful) (keys : List Key) (g : Nat) (h : keys.length < 26 ^ g) :
    ∃ w : List Nat, w.length = g ∧ (∀ x ∈ w, x < 26) ∧ ¬ InFold U (w.map letterOf) (keys.map (fun k => k.id.val)) := by
  apply Classical.byContradiction
  intro hno
  have hall : ∀ v : Fin g → Fin 26, InFold U ((List.ofFn (fun i => (v i).val)).map letterOf) (keys.map (fun k => k.id.val)) := by
    intro v
    apply Classical.byContradiction
    intro hn
    refine hno ⟨List.ofFn (fun i => (v i).val), by simp, ?_, hn⟩
    intro x hx
    obtain ⟨i, rfl⟩ := (List.mem_ofFn' _ _).1 hx
    exact (v i).isLt
  have hup : ∀ x : Nat, x < 26 → U.toUpper (letterOf x) = letterOf x :=
    fun x hx => toUpper_letter hU (letterOf_isLetter hx)
  -- an injection of the ids into the keys
  have hidx : ∀ v : Fin g → Fin 26, ∃ i : Fin keys.length, SameFold U ((List.ofFn (fun i => (v i).val)).map letterOf) keys[i].id.val := by
    intro v
    obtain ⟨b, hb, hs⟩ := hall v
    obtain ⟨k, hk, rfl⟩ := List.mem_map.1 hb
    obtain ⟨i, hi, rfl⟩ := List.getElem_of_mem hk
    exact ⟨⟨i, hi⟩, hs⟩
  choose F hF using hidx
  have hinj : Function.Injective F := by
    intro v v' e
    have h1 := (hF v).trans ((e ▸ (hF v').symm : SameFold U keys[F v].id.val _))
    unfold SameFold at h1
    rw [List.map_map, List.map_map, List.map_ofFn, List.map_ofFn] at h1
    have h2 := List.ofFn_injective h1
    funext i
    have h3 := congrFun h2 i
    simp only [Function.comp] at h3
    rw [hup _ (v i).isLt, hup _ (v' i).isLt] at h3
    unfold letterOf at h3
    apply Fin.ext
    omega
  have := Fintype.card_le_of_injective F hinj
  simp at this
  omega

end K431
