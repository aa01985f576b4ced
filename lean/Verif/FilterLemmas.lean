import Verif.SpecCli
import Verif.PropsFunctions

/-!
# Lemmas about the filters
-/

namespace K431
open Spec

theorem listedFold_iff (U : Unicode) (id : Runes) : ∀ l : List Runes, listedFold U id l = true ↔ InFold U id l := by
  intro l
  induction l with
  | nil => simp [listedFold, InFold]
  | cons x xs ih =>
    simp only [listedFold]
    by_cases h : equalRunesFold U (some id) (some x) = true
    · rw [if_pos h]
      simp only [true_iff]
      exact ⟨x, by simp, (equalRunesFold_iff U _ _).1 h⟩
    · rw [if_neg h, ih]
      constructor
      · rintro ⟨b, hb, hs⟩; exact ⟨b, by simp [hb], hs⟩
      · rintro ⟨b, hb, hs⟩
        rcases List.mem_cons.1 hb with rfl | hb
        · exact absurd ((equalRunesFold_iff U _ _).2 hs) h
        · exact ⟨b, hb, hs⟩

theorem wrap64_small {x : Int} (h : -9223372036854775808 ≤ x) (h' : x < 9223372036854775808) : wrap64 x = x := by
  unfold wrap64; omega

/-- the filter, option by option -/
theorem keyFilter_iff (U : Unicode) (now : Int) (o : KeyOpts) (k : Key) (hd : o.daysFit) :
    keyFilter U now o k = true ↔ o.all = true ∨
      (vettedKeepers U o.ids ≠ [] ∧ InFold U k.id.val (vettedKeepers U o.ids)) ∨
      (vettedKeepers U o.ids = [] ∧
       (vettedKeepers U o.keepers ≠ [] →
         if o.or then ∃ n ∈ vettedKeepers U o.keepers, n ∈ k.names else ∀ n ∈ vettedKeepers U o.keepers, n ∈ k.names) ∧
       (o.invalid = true → ¬ (k.compromised = true ∨ k.expires < now)) ∧
       (o.compromised = true → k.compromised = true) ∧
       (o.used = true → k.used = true) ∧
       (o.unused = true → k.used = false) ∧
       (o.expired = true → k.expires < now) ∧
       (∀ n, o.valid = some n → k.compromised = false ∧ now + n * (24 * 3600 * 1000000000) < k.expires)) := by
  obtain ⟨_, _, _, _, _, _, hall, _, hany, _, _⟩ := C30_membership U
  unfold keyFilter
  simp only
  by_cases h1 : o.all = true
  · rw [if_pos h1]; simp [h1]
  · rw [if_neg h1]
    simp only [h1, false_or, Bool.false_eq_true]
    by_cases h2 : vettedKeepers U o.ids = []
    · rw [if_neg (by simp [h2])]
      simp only [h2, ne_eq, not_true_eq_false, false_and, true_and, false_or]
      -- keepers
      have hk : ((decide ((vettedKeepers U o.keepers).length > 0) &&
          if o.or = true then !anyNeedleInHaystack U (some (vettedKeepers U o.keepers)) (some k.names)
          else !allNeedlesInHaystack U (some (vettedKeepers U o.keepers)) (some k.names) false) = true) ↔
          ¬ (vettedKeepers U o.keepers ≠ [] →
            if o.or then ∃ n ∈ vettedKeepers U o.keepers, n ∈ k.names else ∀ n ∈ vettedKeepers U o.keepers, n ∈ k.names) := by
        simp only [Bool.and_eq_true, decide_eq_true_eq, gt_iff_lt, List.length_pos_iff]
        by_cases ho : o.or = true
        · simp only [ho, if_true, Bool.not_eq_true', ← Bool.not_eq_true, hany, Classical.not_imp]
        · have ho' : o.or = false := by simpa using ho
          simp only [ho', Bool.false_eq_true, if_false, Bool.not_eq_true', ← Bool.not_eq_true, hall, Classical.not_imp]
          constructor
          · rintro ⟨a, b⟩; exact ⟨a, fun c => b ⟨a, c⟩⟩
          · rintro ⟨a, b⟩; exact ⟨a, fun c => b c.2⟩
      have hv : validOption now o.valid k = true ↔
          (∀ n, o.valid = some n → k.compromised = false ∧ now + n * (24 * 3600 * 1000000000) < k.expires) := by
        unfold validOption
        rcases hn : o.valid with _ | n
        · simp
        · obtain ⟨ha, hb⟩ := hd n hn
          have hw : wrap64 (n * 24 * hour) = n * (24 * 3600 * 1000000000) := by
            have : n * 24 * hour = n * (24 * 3600 * 1000000000) := by unfold hour; omega
            rw [this]; apply wrap64_small <;> omega
          simp only [hw, Option.some.injEq, forall_eq']
          by_cases hc : k.compromised = true
          · simp [hc]
          · simp only [hc, isValid]
            by_cases hx : now + n * (24 * 3600 * 1000000000) < k.expires
            · simp [hx]
            · simp [hx]
      by_cases c1 : (vettedKeepers U o.keepers ≠ [] →
            if o.or then ∃ n ∈ vettedKeepers U o.keepers, n ∈ k.names else ∀ n ∈ vettedKeepers U o.keepers, n ∈ k.names)
      · have n1 : ¬ _ := fun h => hk.1 h c1
        rw [if_neg n1]
        have t1 : (vettedKeepers U o.keepers ≠ [] →
            if o.or then ∃ n ∈ vettedKeepers U o.keepers, n ∈ k.names else ∀ n ∈ vettedKeepers U o.keepers, n ∈ k.names) = True :=
          eq_true c1
        simp only [ne_eq] at t1
        rw [t1, true_and]
        rw [← hv]
        generalize validOption now o.valid k = last
        unfold isExpired
        by_cases he : k.expires < now
        · simp only [gt_iff_lt, he, decide_true]
          generalize o.invalid = i; generalize o.compromised = a; generalize o.used = b; generalize o.unused = c
          generalize o.expired = d; generalize k.compromised = e; generalize k.used = f
          cases i <;> cases a <;> cases b <;> cases c <;> cases d <;> cases e <;> cases f <;> simp
        · simp only [gt_iff_lt, he, decide_false]
          generalize o.invalid = i; generalize o.compromised = a; generalize o.used = b; generalize o.unused = c
          generalize o.expired = d; generalize k.compromised = e; generalize k.used = f
          cases i <;> cases a <;> cases b <;> cases c <;> cases d <;> cases e <;> cases f <;> simp
      · rw [if_pos (hk.2 c1)]
        simp only [Bool.false_eq_true, false_iff]
        exact fun h => c1 h.1
    · rw [if_pos (List.length_pos_iff.2 h2), listedFold_iff]
      simp [h2]

theorem listed_iff (id : Runes) : ∀ l : List Runes, listed id l = true ↔ id ∈ l := by
  intro l
  induction l with
  | nil => simp [listed]
  | cons x xs ih =>
    obtain ⟨heq, _⟩ := C30_membership unicode15
    simp only [listed]
    by_cases h : equalRunes (some id) (some x) = true
    · rw [if_pos h]
      have := (heq _ _).1 h
      simp only [Option.some.injEq] at this
      simp [this]
    · rw [if_neg h, ih]
      have : id ≠ x := by rintro rfl; exact h ((heq _ _).2 rfl)
      simp [this]

end K431
