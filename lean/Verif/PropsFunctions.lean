import Verif.FunLemmas
import Verif.SpecNames

/-!
# Properties of the helper functions (C30, C31, C32)
-/

namespace K431
open Spec

/-! ## C30: comparison and membership -/

/-- **C30.** `EqualRunes` is equality (nil equals nil only); `EqualRunesFold` is equality up to upper-casing
and so an equivalence relation containing equality; `AllNeedlesInHaystack` is true exactly if there
is a needle and every needle occurs in the haystack (up to case if asked); `AnyNeedleInHaystack`
exactly if some needle occurs; `AnyOfThem` exactly if the needle is not empty and occurs. -/
theorem C30_membership (U : Unicode) :
    (∀ a b : Option Runes, equalRunes a b = true ↔ a = b) ∧
    (∀ a b : Runes, equalRunesFold U (some a) (some b) = true ↔ SameFold U a b) ∧
    (∀ a : Option Runes, equalRunesFold U a none = true ↔ a = none) ∧
    (∀ a : Option Runes, equalRunesFold U a a = true) ∧
    (∀ a b : Option Runes, equalRunesFold U a b = equalRunesFold U b a) ∧
    (∀ a b c : Option Runes, equalRunesFold U a b = true → equalRunesFold U b c = true → equalRunesFold U a c = true) ∧
    (∀ ns hs : List Runes, allNeedlesInHaystack U (some ns) (some hs) false = true ↔ ns ≠ [] ∧ ∀ n ∈ ns, n ∈ hs) ∧
    (∀ ns hs : List Runes, allNeedlesInHaystack U (some ns) (some hs) true = true ↔
      ns ≠ [] ∧ ∀ n ∈ ns, ∃ h ∈ hs, SameFold U h n) ∧
    (∀ ns hs : List Runes, anyNeedleInHaystack U (some ns) (some hs) = true ↔ ∃ n ∈ ns, n ∈ hs) ∧
    (∀ (hs : List Runes) (n : Runes), anyOfThem U (some hs) (some n) = true ↔ n ≠ [] ∧ n ∈ hs) ∧
    (∀ (x : Option (List Runes)) (ci : Bool), allNeedlesInHaystack U none x ci = false ∧
      allNeedlesInHaystack U x none ci = false ∧ anyNeedleInHaystack U none x = false ∧
      anyNeedleInHaystack U x none = false ∧ anyOfThem U x none = false ∧ ∀ n, anyOfThem U none n = false) := by
  have hall : ∀ (ci : Bool) (ns hs : List Runes), allNeedlesInHaystack U (some ns) (some hs) ci = true ↔
      ns ≠ [] ∧ ∀ n ∈ ns, ∃ h ∈ hs, eqBy U ci h n = true := by
    intro ci ns hs
    simp only [allNeedlesInHaystack]
    by_cases h : ns.length = 0 ∨ hs.length = 0
    · rw [if_pos h]
      simp only [Bool.false_eq_true, false_iff]
      rintro ⟨a, b⟩
      rcases h with h | h
      · exact a (List.length_eq_zero_iff.1 h)
      · cases ns with
        | nil => exact a rfl
        | cons n ns =>
          obtain ⟨x, hx, _⟩ := b n (by simp)
          rw [List.length_eq_zero_iff.1 h] at hx; cases hx
    · rw [if_neg h, allNeedlesLoop_ci]
      have : ns ≠ [] := fun e => h (.inl (by simp [e]))
      simp [this]
  refine ⟨?_, equalRunesFold_iff U, ?_, ?_, ?_, ?_, ?_, ?_, ?_, ?_, ?_⟩
  · intro a b
    cases a <;> cases b
    · simp [equalRunes]
    · simp [equalRunes]
    · simp [equalRunes]
    · rw [equalRunes_iff]; simp
  · intro a; cases a <;> simp [equalRunesFold]
  · intro a; cases a
    · rfl
    · rw [equalRunesFold_iff]
  · intro a b
    cases a <;> cases b
    · rfl
    · rfl
    · rfl
    · rw [Bool.eq_iff_iff, equalRunesFold_iff, equalRunesFold_iff, eq_comm]
  · intro a b c h1 h2
    cases a <;> cases b <;> cases c <;> first | rfl | (simp [equalRunesFold] at h1; done) | (simp [equalRunesFold] at h2; done) | skip
    rw [equalRunesFold_iff] at h1 h2 ⊢
    exact h1.trans h2
  · intro ns hs
    rw [hall]
    simp only [eqBy_false]
    simp
  · intro ns hs
    rw [hall]
    simp only [eqBy, if_true, equalRunesFold_iff, SameFold]
  · intro ns hs
    simp only [anyNeedleInHaystack]
    by_cases h : ns.length = 0 ∨ hs.length = 0
    · rw [if_pos h]
      simp only [Bool.false_eq_true, false_iff]
      rintro ⟨n, a, b⟩
      rcases h with h | h
      · rw [List.length_eq_zero_iff.1 h] at a; cases a
      · rw [List.length_eq_zero_iff.1 h] at b; cases b
    · rw [if_neg h, anyNeedleLoop_iff]
  · intro hs n
    simp only [anyOfThem]
    by_cases h : n.length = 0
    · rw [if_pos h]; simp [List.length_eq_zero_iff.1 h]
    · rw [if_neg h, needleIn_iff]
      have : n ≠ [] := fun e => h (by simp [e])
      simp [this]
  · intro x ci
    cases x <;> simp [allNeedlesInHaystack, anyNeedleInHaystack, anyOfThem]

/-- non-vacuity -/
example : equalRunesFold unicode15 (some (lit "sa6mwa")) (some (lit "SA6MWA")) = true ∧
    equalRunes (some (lit "sa6mwa")) (some (lit "SA6MWA")) = false ∧
    allNeedlesInHaystack unicode15 (some [lit "A", lit "B"]) (some [lit "B", lit "C", lit "A"]) false = true := by decide

/-! ## C31: vetting -/

/-- a name in normal form: not empty, upper-case, no comma or blank, no white space around it -/
def Vetted (U : Unicode) (w : Runes) : Prop :=
  w ≠ [] ∧ toUpperStr U w = w ∧ 44 ∉ w ∧ 32 ∉ w ∧
    (∀ c, w.head? = some c → U.isSpace c = false) ∧ (∀ c, w.getLast? = some c → U.isSpace c = false)

/-- **C31.** Vetted names are in normal form; vetting again, joined by commas or by blanks or not
joined at all, gives the same list; and it does not matter how names are distributed over
arguments: an argument may be cut at any comma or blank. -/
theorem C31_vetting (U : Unicode) (hU : U.Lawful) (args : List Runes) :
    (∀ w ∈ vettedKeepers U args, Vetted U w) ∧
    (∀ sep ∈ [(44 : Int), 32], vettedKeepers U [joinWith [sep] (vettedKeepers U args)] = vettedKeepers U args) ∧
    vettedKeepers U (vettedKeepers U args) = vettedKeepers U args ∧
    (∀ more, vettedKeepers U (args ++ more) = vettedKeepers U args ++ vettedKeepers U more) ∧
    ∀ x y, ∀ sep ∈ [(44 : Int), 32], vettedKeepers U [x ++ sep :: y] = vettedKeepers U [x, y] := by
  have hv := fun w (h : w ∈ vettedKeepers U args) => vetted_mem hU h
  have hg : ∀ w ∈ vettedKeepers U args, w ≠ [] ∧ toUpperStr U (trimSpace U w) = w := by
    intro w h
    obtain ⟨a, b, c, _⟩ := hv w h
    exact ⟨a, by rw [c, b]⟩
  refine ⟨?_, ?_, ?_, ?_, ?_⟩
  · intro w hw
    obtain ⟨a, b, c, d⟩ := hv w hw
    refine ⟨a, b, ?_, ?_, ?_, ?_⟩
    · intro h; have := d _ h; simp [isSep] at this
    · intro h; have := d _ h; simp [isSep] at this
    · intro x hx
      rw [← c] at hx
      have hpre : trimSpace U w <+: w.dropWhile U.isSpace := by
        unfold trimSpace
        have := List.dropWhile_suffix U.isSpace (l := (w.dropWhile U.isSpace).reverse)
        have := this.reverse
        simpa using this
      obtain ⟨t, ht⟩ := hpre
      apply dropWhile_head U.isSpace w
      rw [← ht]
      cases hh : trimSpace U w with
      | nil => rw [hh] at hx; cases hx
      | cons z zs => rw [hh] at hx; simpa using hx
    · intro x hx
      rw [← c] at hx
      unfold trimSpace at hx
      rw [List.getLast?_reverse] at hx
      exact dropWhile_head U.isSpace _ x hx
  · intro sep hsep
    have hs : isSep sep = true := by
      simp only [List.mem_cons, List.not_mem_nil, or_false] at hsep
      rcases hsep with rfl | rfl <;> decide
    have e : ∀ x, vettedKeepers U [x] = vetFields (fun s => toUpperStr U (trimSpace U s)) (fieldsLoop isSep x []) := by
      intro x; simp [vettedKeepers, fieldsFunc]
    rw [e, fields_join isSep sep hs _ (fun w hw => ⟨(hv w hw).1, (hv w hw).2.2.2⟩)]
    exact vetFields_id _ _ hg
  · conv => lhs; unfold vettedKeepers
    have : ∀ l : List Runes, (∀ w ∈ l, (w ≠ [] ∧ toUpperStr U (trimSpace U w) = w) ∧ ∀ c ∈ w, isSep c = false) →
        l.flatMap (fun a => vetFields (fun s => toUpperStr U (trimSpace U s)) (fieldsFunc isSep a)) = l := by
      intro l
      induction l with
      | nil => intro _; rfl
      | cons x xs ih =>
        intro h
        obtain ⟨⟨h1, h2⟩, h3⟩ := h x (by simp)
        rw [List.flatMap_cons, ih (fun w hw => h w (by simp [hw]))]
        unfold fieldsFunc
        rw [fieldsLoop_clean isSep x [] h3]
        rw [if_neg (by simpa using h1), List.reverse_nil, List.nil_append, vetFields_id _ _ (by intro w hw; simp at hw; subst hw; exact ⟨h1, h2⟩)]
        rfl
    exact this _ (fun w hw => ⟨hg w hw, (hv w hw).2.2.2⟩)
  · intro more
    simp [vettedKeepers]
  · intro x y sep hsep
    have hs : isSep sep = true := by
      simp only [List.mem_cons, List.not_mem_nil, or_false] at hsep
      rcases hsep with rfl | rfl <;> decide
    simp only [vettedKeepers, List.flatMap_cons, List.flatMap_nil, List.append_nil]
    unfold fieldsFunc
    rw [fieldsLoop_append isSep sep hs, vetFields_append]

/-- non-vacuity -/
example : vettedKeepers unicode15 [lit "aa, bb", lit " sa6mwa/p ,"] = [lit "AA", lit "BB", lit "SA6MWA/P"] := by decide

/-! ## C32: grouping -/

/-- **C32.** For a group size of at least one `groups` succeeds, and its output is the input cut into
groups: `lines` are the lines of groups; the groups in order are the input; every group but the
very last has exactly the group size, the last has at least one rune; groups are separated by one
blank, lines by the line break; without column limit there is one line; with a limit at least as wide as a group no line is longer.  Any other group size, and nil, is an error. -/
theorem C32_grouping (lb input : Runes) (gs cols : Int) :
    (gs ≥ 1 → ∃ (lines : List (List Runes)) (out : Runes), groups lb (some input) gs cols = .ok out ∧
      out = joinWith lb (lines.map (joinWith [32])) ∧ lines.flatten.flatten = input ∧
      Whole gs lines.flatten ∧ (∀ l ∈ lines, l ≠ []) ∧
      (cols ≤ 0 → lines.length ≤ 1) ∧
      (cols > 0 → gs ≤ cols → ∀ l ∈ lines, ((joinWith [32] l).length : Int) ≤ cols)) ∧
    (gs < 1 → ∃ e, groups lb (some input) gs cols = .err e) ∧ (∃ e, groups lb none gs cols = .err e) := by
  refine ⟨?_, ?_, ⟨_, rfl⟩⟩
  · intro hg
    simp only [groups]
    rw [if_neg (by omega)]
    by_cases hi : input = []
    · subst hi
      exact ⟨[], [], rfl, rfl, rfl, by intro n g hn; simp at hn, by simp, by simp, by simp⟩
    · obtain ⟨g, line, lines, e1, e2, e3, e3', e4, e5, e6, e7, e8⟩ := groupsLoop_spec lb gs cols input 0 0 hi (by omega) (by omega)
      refine ⟨(g :: line) :: lines, _, rfl, ?_, ?_, ?_, ?_, ?_, ?_⟩
      · rw [e1]
        have : ∀ (x : Runes) (l : List (List Runes)), x ++ l.flatMap (fun l => lb ++ joinWith [32] l) =
            joinWith lb (x :: l.map (joinWith [32])) := by
          intro x l
          induction l generalizing x with
          | nil => simp [joinWith]
          | cons y ys ih =>
            rw [List.map_cons, joinWith_cons _ _ _ (by simp), ← ih, List.flatMap_cons]
            simp [List.append_assoc]
        exact this _ _
      · rw [e2]; simp
      · simp only [List.flatten_cons, List.cons_append]
        exact e4.cons e3 (by omega) (fun h => by have := e6 h; omega)
      · intro l hl
        rcases List.mem_cons.1 hl with rfl | hl
        · simp
        · exact e3' l hl
      · intro hc; rw [e8 hc]; simp
      · intro h1 h2 l hl
        obtain ⟨f1, f2⟩ := e7 h1 (by omega) h2
        rcases List.mem_cons.1 hl with rfl | hl
        · omega
        · exact f2 l hl
  · intro hg
    simp only [groups]
    rw [if_pos (by omega)]
    exact ⟨_, rfl⟩

/-- non-vacuity: 13 letters in groups of five, 12 columns -/
example : groups [10] (some (lit "ABCDEFGHIJKLM")) 5 12 = .ok (lit "ABCDE FGHIJ\nKLM") ∧
    groups [10] (some (lit "ABCDEFGHIJKLM")) 5 0 = .ok (lit "ABCDE FGHIJ KLM") := by decide

end K431
