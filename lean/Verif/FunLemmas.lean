import Verif.SpecCipher
import Verif.EncFacts

/-!
# Lemmas about the helper functions
-/

namespace K431
open Spec

/-! ## Grouping -/

theorem joinWith_cons (sep g : Runes) (gs : List Runes) (h : gs ≠ []) :
    joinWith sep (g :: gs) = g ++ sep ++ joinWith sep gs := by
  cases gs with
  | nil => exact absurd rfl h
  | cons x xs => rfl

theorem joinWith_head (sep : Runes) (c : Rune) (g : Runes) (gs : List Runes) :
    joinWith sep ((c :: g) :: gs) = c :: joinWith sep (g :: gs) := by
  cases gs with
  | nil => rfl
  | cons x xs => rfl

theorem Whole.cons {gs : Int} {g : Runes} {l : List Runes} (h : Whole gs l) (hg : g ≠ [])
    (hl : (g.length : Int) ≤ gs) (hx : l ≠ [] → (g.length : Int) = gs) : Whole gs (g :: l) := by
  intro n x hn
  cases n with
  | zero =>
    simp at hn; subst hn
    exact ⟨hg, hl, fun h => hx (by intro e; rw [e] at h; simp at h)⟩
  | succ n =>
    rw [List.getElem?_cons_succ] at hn
    obtain ⟨a, b, c⟩ := h n x hn
    exact ⟨a, b, fun h' => c (by simp at h'; omega)⟩

theorem groupsLoop_spec (lb : Runes) (gs cols : Int) : ∀ (cs : Runes) (rc oc : Int), cs ≠ [] → 0 ≤ rc → rc < gs →
    ∃ (g : Runes) (line : List Runes) (lines : List (List Runes)),
      groupsLoop lb gs cols cs rc oc = joinWith [32] (g :: line) ++ lines.flatMap (fun l => lb ++ joinWith [32] l) ∧
      cs = g ++ line.flatten ++ lines.flatten.flatten ∧ g ≠ [] ∧ (∀ l ∈ lines, l ≠ []) ∧
      Whole gs (line ++ lines.flatten) ∧ rc + g.length ≤ gs ∧
      (line ++ lines.flatten ≠ [] → rc + g.length = gs) ∧
      (cols > 0 → oc - rc + gs ≤ cols → gs ≤ cols →
        oc + (joinWith [32] (g :: line)).length ≤ cols ∧ ∀ l ∈ lines, ((joinWith [32] l).length : Int) ≤ cols) ∧
      (cols ≤ 0 → lines = []) := by
  intro cs
  induction cs with
  | nil => intro rc oc h; exact absurd rfl h
  | cons c cs ih =>
    intro rc oc _ h0 h1
    have hw0 : Whole gs [] := by intro n g hn; simp at hn
    simp only [groupsLoop]
    by_cases hend : rc + 1 = gs
    · rw [if_pos hend]
      by_cases hcs : cs = []
      · subst hcs
        simp only [ne_eq, not_true_eq_false, if_false, groupsLoop]
        refine ⟨[c], [], [], by simp [joinWith], by simp, by simp, by simp, hw0, by simp; omega, by simp, ?_, by simp⟩
        intro _ h2 _
        refine ⟨by simp [joinWith]; omega, by simp⟩
      · rw [if_pos hcs]
        by_cases hbr : cols > 0 ∧ oc + 1 ≥ cols - gs - 1
        · rw [if_pos hbr]
          obtain ⟨g, line, lines, e1, e2, e3, e3', e4, e5, e6, e7, e8⟩ := ih 0 0 hcs (by omega) (by omega)
          refine ⟨[c], [], (g :: line) :: lines, ?_, ?_, by simp, ?_, ?_, by simp; omega, ?_, ?_, by omega⟩
          · rw [e1]; simp [joinWith]
          · rw [e2]; simp
          · intro l hl
            rcases List.mem_cons.1 hl with rfl | hl
            · simp
            · exact e3' l hl
          · simp only [List.nil_append, List.flatten_cons, List.cons_append]
            exact e4.cons e3 (by omega) (fun h => by have := e6 h; omega)
          · intro _; simp; omega
          · intro h2 h3 h4
            obtain ⟨f1, f2⟩ := e7 h2 (by omega) h4
            refine ⟨by simp [joinWith]; omega, ?_⟩
            intro l hl
            rcases List.mem_cons.1 hl with rfl | hl
            · omega
            · exact f2 l hl
        · rw [if_neg hbr]
          obtain ⟨g, line, lines, e1, e2, e3, e3', e4, e5, e6, e7, e8⟩ := ih 0 (oc + 1 + 1) hcs (by omega) (by omega)
          refine ⟨[c], g :: line, lines, ?_, ?_, by simp, e3', ?_, by simp; omega, ?_, ?_, e8⟩
          · rw [e1, joinWith_cons [32] [c] (g :: line) (by simp)]; simp
          · rw [e2]; simp
          · rw [List.cons_append]
            exact e4.cons e3 (by omega) (fun h => by have := e6 h; omega)
          · intro _; simp; omega
          · intro h2 h3 h4
            obtain ⟨f1, f2⟩ := e7 h2 (by omega) h4
            refine ⟨?_, f2⟩
            rw [joinWith_cons _ _ _ (by simp)]
            simp only [List.length_append, List.length_cons, List.length_nil]
            omega
    · rw [if_neg hend]
      by_cases hcs : cs = []
      · subst hcs
        simp only [groupsLoop]
        refine ⟨[c], [], [], by simp [joinWith], by simp, by simp, by simp, hw0, by simp; omega, by simp, ?_, by simp⟩
        intro _ h2 _
        refine ⟨by simp [joinWith]; omega, by simp⟩
      · obtain ⟨g, line, lines, e1, e2, e3, e3', e4, e5, e6, e7, e8⟩ := ih (rc + 1) (oc + 1) hcs (by omega) (by omega)
        refine ⟨c :: g, line, lines, ?_, ?_, by simp, e3', e4, by simp; omega, ?_, ?_, e8⟩
        · rw [e1, joinWith_head]; simp
        · rw [e2]; simp
        · intro h; have := e6 h; simp; omega
        · intro h2 h3 h4
          obtain ⟨f1, f2⟩ := e7 h2 (by omega) h4
          refine ⟨?_, f2⟩
          rw [joinWith_head]
          simp only [List.length_cons]
          omega

/-! ## Fields -/

theorem fieldsLoop_append (f : Rune → Bool) (sep : Rune) (hs : f sep = true) (y : Runes) : ∀ (x cur : Runes),
    fieldsLoop f (x ++ sep :: y) cur = fieldsLoop f x cur ++ fieldsLoop f y [] := by
  intro x
  induction x with
  | nil =>
    intro cur
    simp only [List.nil_append, fieldsLoop, hs, if_true]
    by_cases h : cur = [] <;> simp [h]
  | cons c cs ih =>
    intro cur
    simp only [List.cons_append, fieldsLoop]
    by_cases h : f c = true
    · rw [if_pos h, if_pos h]
      by_cases h2 : cur = []
      · simp [h2, ih]
      · simp [h2, ih]
    · rw [if_neg h, if_neg h, ih]

theorem fieldsLoop_mem (f : Rune → Bool) : ∀ (x cur : Runes), (∀ c ∈ cur, f c = false) →
    ∀ w ∈ fieldsLoop f x cur, w ≠ [] ∧ ∀ c ∈ w, f c = false := by
  intro x
  induction x with
  | nil =>
    intro cur hc w hw
    simp only [fieldsLoop] at hw
    by_cases h : cur = []
    · simp [h] at hw
    · simp [h] at hw; subst hw
      exact ⟨by simpa using h, by simpa using hc⟩
  | cons c cs ih =>
    intro cur hc w hw
    simp only [fieldsLoop] at hw
    by_cases h : f c = true
    · rw [if_pos h] at hw
      by_cases h2 : cur = []
      · rw [if_pos h2] at hw; exact ih [] (by simp) w hw
      · rw [if_neg h2] at hw
        rcases List.mem_cons.1 hw with rfl | hw
        · exact ⟨by simpa using h2, by simpa using hc⟩
        · exact ih [] (by simp) w hw
    · rw [if_neg h] at hw
      refine ih (c :: cur) ?_ w hw
      intro d hd
      rcases List.mem_cons.1 hd with rfl | hd
      · simpa using h
      · exact hc d hd

theorem fieldsLoop_clean (f : Rune → Bool) : ∀ (x cur : Runes), (∀ c ∈ x, f c = false) →
    fieldsLoop f x cur = if cur.reverse ++ x = [] then [] else [cur.reverse ++ x] := by
  intro x
  induction x with
  | nil => intro cur _; simp [fieldsLoop]
  | cons c cs ih =>
    intro cur h
    simp only [fieldsLoop]
    rw [if_neg (by simp [h c (by simp)]), ih (c :: cur) (fun d hd => h d (by simp [hd]))]
    simp

theorem vetFields_mem (g : Runes → Runes) : ∀ (l : List Runes) (w : Runes), w ∈ vetFields g l ↔ w ≠ [] ∧ ∃ x ∈ l, g x = w := by
  intro l
  induction l with
  | nil => simp [vetFields]
  | cons x xs ih =>
    intro w
    simp only [vetFields]
    by_cases h : (g x).length > 0
    · rw [if_pos h, List.mem_cons, ih]
      constructor
      · rintro (rfl | ⟨a, y, hy, b⟩)
        · exact ⟨by intro e; rw [e] at h; simp at h, x, by simp, rfl⟩
        · exact ⟨a, y, by simp [hy], b⟩
      · rintro ⟨a, y, hy, b⟩
        rcases List.mem_cons.1 hy with rfl | hy
        · exact .inl b.symm
        · exact .inr ⟨a, y, hy, b⟩
    · rw [if_neg h, ih]
      have h0 : g x = [] := List.length_eq_zero_iff.1 (by omega)
      constructor
      · rintro ⟨a, y, hy, b⟩; exact ⟨a, y, by simp [hy], b⟩
      · rintro ⟨a, y, hy, b⟩
        rcases List.mem_cons.1 hy with rfl | hy
        · rw [h0] at b; exact absurd b.symm a
        · exact ⟨a, y, hy, b⟩

theorem vetFields_append (g : Runes → Runes) (a b : List Runes) : vetFields g (a ++ b) = vetFields g a ++ vetFields g b := by
  induction a with
  | nil => rfl
  | cons x xs ih => simp only [List.cons_append, vetFields]; split <;> simp [ih]

theorem vetFields_id (g : Runes → Runes) : ∀ l : List Runes, (∀ w ∈ l, w ≠ [] ∧ g w = w) → vetFields g l = l := by
  intro l
  induction l with
  | nil => intro _; rfl
  | cons x xs ih =>
    intro h
    have := h x (by simp)
    simp only [vetFields, this.2]
    rw [if_pos (List.length_pos_iff.2 this.1), ih (fun w hw => h w (by simp [hw]))]

/-- fields of a joined list of clean words -/
theorem fields_join (f : Rune → Bool) (sep : Rune) (hs : f sep = true) : ∀ l : List Runes,
    (∀ w ∈ l, w ≠ [] ∧ ∀ c ∈ w, f c = false) → fieldsLoop f (joinWith [sep] l) [] = l := by
  intro l
  induction l with
  | nil => intro _; simp [joinWith, fieldsLoop]
  | cons x xs ih =>
    intro h
    obtain ⟨h1, h2⟩ := h x (by simp)
    have hx : fieldsLoop f x [] = [x] := by rw [fieldsLoop_clean f x [] h2]; simp [h1]
    by_cases hxs : xs = []
    · subst hxs; exact hx
    · rw [joinWith_cons _ _ _ hxs]
      have : x ++ [sep] ++ joinWith [sep] xs = x ++ sep :: joinWith [sep] xs := by simp
      rw [this, fieldsLoop_append f sep hs, hx, ih (fun w hw => h w (by simp [hw]))]
      rfl

theorem trimSpace_mem {U : Unicode} {s : Runes} {c : Rune} (h : c ∈ trimSpace U s) : c ∈ s := by
  unfold trimSpace at h
  rw [List.mem_reverse] at h
  have h1 := (List.dropWhile_suffix U.isSpace (l := (s.dropWhile U.isSpace).reverse)).subset h
  rw [List.mem_reverse] at h1
  exact (List.dropWhile_suffix U.isSpace).subset h1

theorem isSep_toUpper {U : Unicode} (hU : U.Lawful) (c : Rune) (h : isSep c = false) : isSep (U.toUpper c) = false := by
  rcases hs : isSep (U.toUpper c) with _ | _
  · rfl
  · have h1 : U.toUpper c = 44 ∨ U.toUpper c = 32 := by simpa [isSep] using hs
    have hn : U.toUpper c ∈ capitals ++ neutrals := by
      rcases h1 with h1 | h1 <;> rw [h1] <;> decide
    have key : ∀ c ∈ alphabet, U.toUpper c = 44 ∨ U.toUpper c = 32 → isSep c = true := by
      intro c hc hu
      unfold alphabet at hc
      rcases List.mem_append.1 hc with hc | hc
      · rcases List.mem_append.1 hc with hc | hc
        · rw [(hU.capital c hc).2.2.1] at hu
          have : ∀ c ∈ capitals, ¬ (c = 44 ∨ c = 32) := by decide
          exact absurd hu (this c hc)
        · rw [(hU.small c hc).2.2.1] at hu
          have : ∀ c ∈ smalls, ¬ (c - 32 = 44 ∨ c - 32 = 32) := by decide
          exact absurd hu (this c hc)
      · rw [(hU.neutral c hc).2.2.1] at hu
        simpa [isSep] using hu
    rcases hU.preimage c hn with hc | rfl | rfl
    · rw [key c hc h1] at h; cases h
    · rw [hU.dotlessI.2.2] at h1; omega
    · rw [hU.longS.2.2] at h1; omega

/-- each vetted name is a normal form -/
theorem vetted_mem {U : Unicode} (hU : U.Lawful) {args : List Runes} {w : Runes} (h : w ∈ vettedKeepers U args) :
    w ≠ [] ∧ toUpperStr U w = w ∧ trimSpace U w = w ∧ ∀ c ∈ w, isSep c = false := by
  unfold vettedKeepers at h
  obtain ⟨a, _, h⟩ := List.mem_flatMap.1 h
  obtain ⟨h1, x, hx, h2⟩ := (vetFields_mem _ _ _).1 h
  obtain ⟨_, h3⟩ := fieldsLoop_mem isSep a [] (by simp) x hx
  refine ⟨h1, ?_, ?_, ?_⟩
  · rw [← h2, toUpperStr_idem hU]
  · rw [← h2, trimSpace_toUpper hU, trimSpace_idem]
  · intro c hc
    rw [← h2] at hc
    obtain ⟨d, hd, rfl⟩ := List.mem_map.1 hc
    exact isSep_toUpper hU d (h3 d (trimSpace_mem hd))

/-! ## Comparisons -/

theorem equalFoldLoop_iff (U : Unicode) : ∀ (a b : Runes), a.length = b.length →
    (equalFoldLoop U a b = true ↔ a.map U.toUpper = b.map U.toUpper) := by
  intro a
  induction a with
  | nil => intro b h; cases b <;> simp_all [equalFoldLoop]
  | cons x xs ih =>
    intro b h
    cases b with
    | nil => simp at h
    | cons y ys =>
      simp only [List.length_cons, Nat.add_right_cancel_iff] at h
      simp only [equalFoldLoop]
      by_cases hxy : U.toUpper x = U.toUpper y
      · simp [hxy, ih ys h]
      · simp [hxy]

theorem equalRunesFold_iff (U : Unicode) (a b : Runes) :
    equalRunesFold U (some a) (some b) = true ↔ a.map U.toUpper = b.map U.toUpper := by
  simp only [equalRunesFold]
  by_cases h : a.length = b.length
  · simp [h, equalFoldLoop_iff U a b h]
  · simp only [ne_eq, h, not_false_eq_true, if_true, Bool.false_eq_true, false_iff]
    intro he; exact h (by simpa using congrArg List.length he)

theorem needleIn_fold (U : Unicode) (ci : Bool) (n : Runes) : ∀ hs : List Runes,
    needleIn U ci n hs = true ↔ ∃ h ∈ hs, eqBy U ci h n = true := by
  intro hs
  induction hs with
  | nil => simp [needleIn]
  | cons h hs ih =>
    simp only [needleIn]
    by_cases he : eqBy U ci h n = true
    · rw [if_pos he]; simp [he]
    · rw [if_neg he, ih]; simp [he]

theorem allNeedlesLoop_ci (U : Unicode) (ci : Bool) (hs : List Runes) : ∀ ns : List Runes,
    allNeedlesLoop U ci hs ns = true ↔ ∀ n ∈ ns, ∃ h ∈ hs, eqBy U ci h n = true := by
  intro ns
  induction ns with
  | nil => simp [allNeedlesLoop]
  | cons n ns ih =>
    simp only [allNeedlesLoop]
    by_cases h : needleIn U ci n hs = true
    · rw [if_pos h, ih]; rw [needleIn_fold] at h; simp [h]
    · rw [if_neg h]; rw [needleIn_fold] at h
      simp only [Bool.false_eq_true, false_iff]
      intro h'; exact h (h' n (by simp))

theorem anyNeedleLoop_iff (U : Unicode) (hs : List Runes) : ∀ ns : List Runes,
    anyNeedleLoop U hs ns = true ↔ ∃ n ∈ ns, n ∈ hs := by
  intro ns
  induction ns with
  | nil => simp [anyNeedleLoop]
  | cons n ns ih =>
    simp only [anyNeedleLoop]
    by_cases h : needleIn U false n hs = true
    · rw [if_pos h]; rw [needleIn_iff] at h; simp [h]
    · rw [if_neg h, ih]; rw [needleIn_iff] at h; simp [h]

end K431
