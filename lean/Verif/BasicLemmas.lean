import Verif.Basic

/-!
# The assumptions about Unicode hold of the Unicode tables

`Unicode.Lawful` lists what theorems assume about package `unicode`.  It is proved here of the tables of Unicode 15.0.0, for all code points
(and all other values of type rune).
-/

namespace K431
open Spec

/-- the values that a run covers are those it lists -/
theorem Run.has_all {r : Run} (_ : 0 < r.stride) : ∀ {c : Int}, r.has c = true → ∃ n ∈ r.all, c = (n : Int)
  | .negSucc _, h => by cases h
  | .ofNat n, h => by
    simp only [Run.has, Bool.and_eq_true, Nat.ble_eq, Nat.blt_eq] at h
    obtain ⟨h1, h2, h3⟩ := h
    have e : r.stride * ((n - r.first) / r.stride) = n - r.first := Nat.mul_div_cancel' (Nat.dvd_of_mod_eq_zero (Nat.eq_of_beq_eq_true h3))
    refine ⟨n, ?_, rfl⟩
    simp only [Run.all, List.mem_map, List.mem_range]
    refine ⟨(n - r.first) / r.stride, ?_, by omega⟩
    apply Nat.div_lt_of_lt_mul
    omega

/-- runs change nothing but what they list -/
theorem mapped_cases : ∀ {t : List Run} (_ : ∀ r ∈ t, 0 < r.stride) (c : Int),
    mapped t c = c ∨ ∃ r ∈ t, ∃ n ∈ r.all, c = (n : Int) ∧ mapped t c = (n : Int) + r.delta
  | [], _, c => .inl rfl
  | r :: t, hs, c => by
    unfold mapped
    cases h : r.has c
    · rcases mapped_cases (fun r hr => hs r (List.mem_cons_of_mem _ hr)) c with h | ⟨r', h, x⟩
      · exact .inl h
      · exact .inr ⟨r', List.mem_cons_of_mem _ h, x⟩
    · obtain ⟨n, hn, e⟩ := Run.has_all (hs r List.mem_cons_self) h
      exact .inr ⟨r, List.mem_cons_self, n, hn, e, by rw [e]; rfl⟩

/-- a table changes nothing but what it lists -/
theorem mappedBy_cases : ∀ {t : List Piece} (_ : ∀ p ∈ t, ∀ r ∈ p.runs, 0 < r.stride) (c : Int),
    mappedBy t c = c ∨ ∃ p ∈ t, ∃ r ∈ p.runs, ∃ n ∈ r.all, c = (n : Int) ∧ mappedBy t c = (n : Int) + r.delta
  | [], _, c => .inl rfl
  | p :: t, hs, c => by
    unfold mappedBy
    cases Nat.ble c.toNat p.last
    · rcases mappedBy_cases (fun p hp => hs p (List.mem_cons_of_mem _ hp)) c with h | ⟨p', h, x⟩
      · exact .inl h
      · exact .inr ⟨p', List.mem_cons_of_mem _ h, x⟩
    · rcases mapped_cases (hs p List.mem_cons_self) c with h | ⟨r, h, x⟩
      · exact .inl h
      · exact .inr ⟨p, List.mem_cons_self, r, h, x⟩

/-- what has to be checked of a code point and its upper case -/
def entryOk (c u : Int) : Bool :=
  (decide (unicode15.toUpper u = u)) &&
  (Nat.blt 1000 u.toNat || !(capitals ++ neutrals).contains u || alphabet.contains c || decide (c = dotlessI) || decide (c = longS)) &&
  unicode15.isSpace u == unicode15.isSpace c

/-- all entries of the upper-case table have been checked -/
theorem upper_ok : (tableToUpper.all fun p => p.runs.all fun r => Nat.blt 0 r.stride &&
    r.all.all fun (n : Nat) => entryOk (n : Int) ((n : Int) + r.delta)) = true := by decide +kernel

/-- … and everything below 256 -/
theorem upper_ok_latin1 : ((List.range 256).all fun (n : Nat) => entryOk (n : Int) (unicode15.toUpper (n : Int))) = true := by decide +kernel

/-- below 256 the tables say what `unicode15` does without them -/
theorem latin1_tables : ((List.range 256).all fun (n : Nat) =>
    unicode15.isUpper (n : Int) == (tableLu.any fun r => r.has (n : Int)) && unicode15.isLower (n : Int) == (tableLl.any fun r => r.has (n : Int)) &&
    unicode15.isSpace (n : Int) == (tableSpace.any fun r => r.has (n : Int)) &&
    unicode15.toUpper (n : Int) == mappedBy tableToUpper (n : Int) && unicode15.toLower (n : Int) == mappedBy tableToLower (n : Int)) = true := by
  decide +kernel

/-- the case mapping of any value: none, or one that has been checked -/
theorem upper_cases (c : Int) : unicode15.toUpper c = c ∨ entryOk c (unicode15.toUpper c) = true := by
  by_cases hc : c < 256
  · by_cases h0 : c < 0
    · left
      have : unicode15.toUpper c = if c < 256 then
        (if (97 ≤ c ∧ c ≤ 122) ∨ (224 ≤ c ∧ c ≤ 254 ∧ c ≠ 247) then c - 32 else if c = 181 then 924 else if c = 255 then 376 else c)
        else mappedBy tableToUpper c := rfl
      rw [this, if_pos hc, if_neg (by omega), if_neg (by omega), if_neg (by omega)]
    · right
      have h := upper_ok_latin1
      simp only [List.all_eq_true, List.mem_range] at h
      have := h c.toNat (by omega)
      rwa [Int.toNat_of_nonneg (by omega)] at this
  · have h := upper_ok
    simp only [List.all_eq_true, Bool.and_eq_true, Nat.blt_eq] at h
    have e0 : unicode15.toUpper c = mappedBy tableToUpper c := by
      show (if c < 256 then _ else _) = _
      rw [if_neg hc]
    rcases mappedBy_cases (fun p hp r hr => (h p hp r hr).1) c with e | ⟨p, hp, r, hr, n, hn, e, e'⟩
    · exact .inl (e0.trans e)
    · refine .inr ?_
      rw [e0, e', e]
      exact (h p hp r hr).2 n hn

/-- The tables of Unicode 15.0.0 have all the properties that theorems assume of package `unicode`. -/
theorem unicode15_lawful : unicode15.Lawful where
  capital := by decide +kernel
  small := by decide +kernel
  neutral := by decide +kernel
  dotlessI := by decide +kernel
  longS := by decide +kernel
  preimage c h := by
    rcases upper_cases c with e | e
    · rw [e] at h
      have : ∀ x ∈ capitals ++ neutrals, x ∈ alphabet := by decide +kernel
      exact .inl (this c h)
    · simp only [entryOk, Bool.and_eq_true, Bool.or_eq_true, Bool.not_eq_true', List.contains_iff_mem, decide_eq_true_eq] at e
      rcases e.1.2 with (e | e) | e
      · rcases e with (e | e) | e
        · have : ∀ x ∈ capitals ++ neutrals, Nat.blt 1000 x.toNat = false := by decide +kernel
          rw [this _ h] at e; cases e
        · rw [List.contains_iff_mem.2 h] at e; cases e
        · exact .inl e
      · exact .inr (.inl e)
      · exact .inr (.inr e)
  toUpper_idem c := by
    rcases upper_cases c with e | e
    · rw [e, e]
    · simp only [entryOk, Bool.and_eq_true, decide_eq_true_eq] at e
      exact e.1.1
  isSpace_blank := by decide +kernel
  isSpace_legend := by decide +kernel
  isSpace_equals := by decide +kernel
  isSpace_toUpper c := by
    rcases upper_cases c with e | e
    · rw [e]
    · simp only [entryOk, Bool.and_eq_true, beq_iff_eq] at e
      exact e.2
  toUpper_blank := by decide +kernel
  kelvin := by decide +kernel

/-! ## The tables at some places -/

example : unicode15.toUpper 228 = 196 := by decide +kernel
example : unicode15.toUpper 255 = 376 := by decide +kernel
example : unicode15.toUpper 0x3C3 = 0x3A3 := by decide +kernel
example : unicode15.toLower 304 = 105 := by decide +kernel
example : unicode15.isSpace 0x3000 = true := by decide +kernel

end K431
