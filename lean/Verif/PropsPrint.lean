import Verif.PrintLemmas
import Verif.PropsCipher
import Mathlib.Tactic.IntervalCases

/-!
# C56 (division into pages) and C60 (the coding legend)
-/

namespace K431
open Spec

/-! ## C60 -/

/-- **C60.** The legend lists the columns A..Z; the letter of a column, met by the decoder (in either case mode) while table `t+1` is selected,
means exactly what is printed there: the marks switch table, enter binary mode, toggle case and announce a change of key, as the
explanations at the ends of the lines say, and any other character is written (as a small letter in small-letter mode).  Conversely the
coder writes exactly the column letter for a character printed in the selected table. -/
theorem C60_legend (U : Unicode) (hU : U.Lawful) :
    (∀ i < 26, (keyFooter[1]?).bind (fun l => below l i) = some ((i : Int) + 65)) ∧
    (∃ a b c d, keyFooter = [a, b, c, d] ∧
      explained a markSwitch (lit "Switch table") 90 ∧ explained b markBinary (lit "Toggle binary mode") 87 ∧
      explained c markCase (lit "Toggle case") 88 ∧ explained d markKey (lit "Change key") 89) ∧
    (∀ t < 2, ∀ i < 26, ∃ c, legendChar t i = some c ∧ ∀ (n : Nat) (s : Bool) (out : Runes),
      decodeCharacter U ⟨t, n, false, false, s, false⟩ ((i : Int) + 65) out =
        if c = markSwitch then .ok (⟨1 - t, n, false, false, s, false⟩, out)
        else if c = markBinary then .ok (⟨t, n, false, false, s, true⟩, out)
        else if c = markCase then .ok (⟨t, n, false, false, !s, false⟩, out)
        else if c = markKey then .ok (⟨t, n, true, false, s, false⟩, out)
        else .ok (⟨t, n + 1, false, false, s, false⟩, out ++ [if s then smallOf c else c])) ∧
    (∀ t < 2, ∀ i < 26, ∀ c, legendChar t i = some c → c ∉ [markSwitch, markBinary, markCase, markKey] →
      ∀ (n : Nat) (s : Bool) (out : Runes),
        encodeCharacter U ⟨t, n, false, false, s, false⟩ (if s then smallOf c else c) out =
          .ok (⟨t, n + 1, false, false, s, false⟩, out ++ [(i : Int) + 65])) ∧
    (∀ c, c ∈ alphabet → ∃ t < 2, ∃ i < 26, legendChar t i = some (U.toUpper c) ∧ c ∈ [U.toUpper c, smallOf (U.toUpper c)]) := by
  refine ⟨?_, ⟨_, _, _, _, rfl, by decide, by decide, by decide, by decide⟩, ?_, ?_, ?_⟩
  · intro i hi; interval_cases i <;> decide
  · intro t ht i hi
    obtain ⟨c, tab, h1, h2, h3⟩ := legend_rows t ht i hi
    refine ⟨c, h1, ?_⟩
    intro n s out
    have hp : Plain ⟨t, n, false, false, s, false⟩ := ⟨ht, rfl, rfl, rfl⟩
    by_cases c1 : c = markSwitch
    · rw [if_pos c1] at h3 ⊢
      subst h3
      exact decode_switch U _ hp out
    rw [if_neg c1] at h3 ⊢
    by_cases c2 : c = markBinary
    · rw [if_pos c2] at h3 ⊢
      obtain ⟨rfl, rfl⟩ := h3
      rfl
    rw [if_neg c2] at h3 ⊢
    by_cases c3 : c = markCase
    · rw [if_pos c3] at h3 ⊢
      obtain ⟨rfl, rfl⟩ := h3
      exact decode_case U _ hp rfl out
    rw [if_neg c3] at h3 ⊢
    by_cases c4 : c = markKey
    · rw [if_pos c4] at h3 ⊢
      obtain ⟨rfl, rfl⟩ := h3
      exact decode_changeKey U _ hp rfl out
    rw [if_neg c4] at h3 ⊢
    obtain ⟨h4, h5, h6⟩ := h3
    have hs : c ≠ specialOpChar := c2
    have hc : t = 0 ∧ characterTablePrimary[i]? = some c ∨ t = 1 ∧ characterTableSecondary[i]? = some c := by
      have : t = 0 ∨ t = 1 := by omega
      rcases this with rfl | rfl
      · left; refine ⟨rfl, ?_⟩; simp [characterTables] at h2; rw [h2]; exact h4
      · right; refine ⟨rfl, ?_⟩; simp [characterTables] at h2; rw [h2]; exact h4
    rw [decode_char U _ hp t i c out rfl hc hi hs]
    have hsm : (if (s && (c != spaceChar)) = true then U.toLower c else c) = if s then smallOf c else c := by
      cases s
      · rfl
      · simp only [Bool.true_and, if_true]
        unfold smallOf
        rcases List.mem_append.1 h5 with h | h
        · have h32 : ∀ x ∈ capitals, (x != spaceChar) = true := by decide
          rw [if_pos (h32 c h), if_pos h, (hU.capital c h).2.2.2]
        · have hn : ∀ x ∈ neutrals, x ∉ capitals := by decide
          rw [if_neg (hn c h)]
          split
          · exact (hU.neutral c h).2.2.2
          · rfl
    simp only [hsm]
  · intro t ht i hi c hl hm n s out
    obtain ⟨c', tab, h1, h2, h3⟩ := legend_rows t ht i hi
    rw [hl] at h1
    simp only [Option.some.injEq] at h1
    subst h1
    simp only [List.mem_cons, not_or] at hm
    obtain ⟨c1, c2, c3, c4, _⟩ := hm
    rw [if_neg c1, if_neg c2, if_neg c3, if_neg c4] at h3
    obtain ⟨-, h5, h6⟩ := h3
    have key : U.toUpper (if s then smallOf c else c) = c ∧ needsToggle U s (if s then smallOf c else c) = false := by
      unfold needsToggle
      rcases List.mem_append.1 h5 with h | h
      · have hsm : ∀ x ∈ capitals, x + 32 ∈ smalls := by decide
        cases s
        · simp [hU.capital c h]
        · have := hU.small _ (hsm c h)
          simp [smallOf, h, this]
      · have hn : ∀ x ∈ neutrals, x ∉ capitals := by decide
        have : (if s = true then smallOf c else c) = c := by simp [smallOf, hn c h]
        rw [this]
        simp [hU.neutral c h]
    rw [encodeCharacter_eq U _ rfl ht, key.1, h6]
    simp [word, key.2, sw]
  · intro c hc
    have hfind : ∀ x ∈ capitals ++ neutrals, ∃ t < 2, ∃ i < 26, legendChar t i = some x := by decide +kernel
    unfold alphabet at hc
    simp only [List.mem_append] at hc
    rcases hc with (hc | hc) | hc
    · rw [(hU.capital c hc).2.2.1]
      obtain ⟨t, ht, i, hi, h⟩ := hfind c (List.mem_append_left _ hc)
      exact ⟨t, ht, i, hi, h, by simp⟩
    · rw [(hU.small c hc).2.2.1]
      have : ∀ x ∈ smalls, x - 32 ∈ capitals := by decide
      obtain ⟨t, ht, i, hi, h⟩ := hfind (c - 32) (List.mem_append_left _ (this c hc))
      refine ⟨t, ht, i, hi, h, ?_⟩
      simp [smallOf, this c hc]
    · rw [(hU.neutral c hc).2.2.1]
      obtain ⟨t, ht, i, hi, h⟩ := hfind c (List.mem_append_right _ hc)
      exact ⟨t, ht, i, hi, h, by simp⟩

/-- non-vacuity: the hypothesis is met, and 'H' in table 2 reads 7 -/
example : unicode15.Lawful ∧ legendChar 1 7 = some 55 ∧ legendChar 1 24 = some markKey := ⟨unicode15_lawful, by decide, by decide⟩

/-! ## C56 -/

/-- **C56**, full statement: the items are printed exactly once and in order, and a page of items that each fit is no longer than
a page. -/
def C56_Statement : Prop :=
  ∀ (maxRows : Nat) (lines : Nat → Nat) (items : List Nat), items.Nodup →
    (pagesLoop maxRows lines items 0 []).flatten = items ∧
    ∀ page ∈ pagesLoop maxRows lines items 0 [], (∀ x ∈ page, lines x ≤ maxRows) → rowsOf lines page ≤ maxRows

/-- The statement is false: an item longer than a page is printed before the items that precede it ... -/
theorem C56_violated : ¬ C56_Statement := by
  intro h
  have := h 87 (fun x => if x = 1 then 100 else 10) [0, 1] (by decide)
  revert this
  decide

/-- ... and the rows already on the unfinished page are forgotten, so the page grows too long. -/
theorem C56_violated_size : ¬ ∀ (maxRows : Nat) (lines : Nat → Nat) (items : List Nat), items.Nodup →
    ∀ page ∈ pagesLoop maxRows lines items 0 [], (∀ x ∈ page, lines x ≤ maxRows) → rowsOf lines page ≤ maxRows := by
  intro h
  have := h 87 (fun x => if x = 1 then 100 else 50) [0, 1, 2] (by decide)
  revert this
  decide

/-- **C56**, what holds: every item is printed exactly once; the items that fit a page are printed in order among themselves and so are
those that do not; if every item fits, then all are printed in order, no page is too long and none is empty.  Missing: order and page
length in the presence of an item longer than a page. -/
theorem C56_partial {α : Type} (maxRows : Nat) (lines : α → Nat) (items : List α) :
    let pages := pagesLoop maxRows lines items 0 []
    pages.flatten.Perm items ∧
    (pages.flatten.filter (fun x => decide (lines x ≤ maxRows))) = items.filter (fun x => decide (lines x ≤ maxRows)) ∧
    (pages.flatten.filter (fun x => decide (lines x > maxRows))) = items.filter (fun x => decide (lines x > maxRows)) ∧
    ((∀ x ∈ items, lines x ≤ maxRows) → pages.flatten = items ∧ (∀ page ∈ pages, rowsOf lines page ≤ maxRows) ∧
      (items ≠ [] → ∀ page ∈ pages, page ≠ [])) := by
  intro pages
  refine ⟨by simpa using pagesLoop_perm maxRows lines items 0 [], ?_, ?_, ?_⟩
  · simpa using pagesLoop_flatten maxRows lines (fun x => decide (lines x ≤ maxRows)) (Or.inl (by simp)) items 0 [] (by simp)
  · simpa using pagesLoop_flatten maxRows lines (fun x => decide (lines x > maxRows)) (Or.inr (by simp)) items 0 [] (by simp)
  · intro h
    obtain ⟨a, b, c⟩ := pagesLoop_sound maxRows lines items 0 [] h (by simp [rowsOf]) (by omega)
    exact ⟨by simpa using a, b, fun hne => c (Or.inr hne)⟩

/-- The two callers print exactly the selected keys and messages, and nothing if there are none. -/
theorem C56_partial_callers (fk : Key → Bool) (fm : Msg → Bool) (ck : Key → Nat) (cm : Msg → Nat) (keys : List Key) (msgs : List Msg) :
    (keysPDF fk ck keys = none ↔ ∀ k ∈ keys, fk k = false) ∧
    (messagesPDF fm cm msgs = none ↔ ∀ m ∈ msgs, fm m = false) ∧
    (∀ pages, keysPDF fk ck keys = some pages → pages.flatten.Perm (keys.filter fk) ∧
      ((∀ k ∈ keys, fk k = true → ck k + 5 ≤ 87) → pages.flatten = keys.filter fk ∧
        ∀ page ∈ pages, rowsOf (fun k => ck k + 5) page ≤ 87)) ∧
    (∀ pages, messagesPDF fm cm msgs = some pages → pages.flatten.Perm (msgs.filter fm) ∧
      ((∀ m ∈ msgs, fm m = true → cm m + 2 ≤ 65) → pages.flatten = msgs.filter fm ∧
        ∀ page ∈ pages, rowsOf (fun m => cm m + 2) page ≤ 65)) := by
  refine ⟨?_, ?_, ?_, ?_⟩
  · simp [keysPDF]
  · simp [messagesPDF]
  · intro pages h
    simp only [keysPDF] at h
    split at h
    · simp at h
    · simp only [Option.some.injEq] at h
      subst h
      obtain ⟨a, -, -, d⟩ := C56_partial 87 (fun k => ck k + 5) (keys.filter fk)
      refine ⟨a, fun hf => ?_⟩
      have := d (by intro x hx; exact hf x (List.mem_filter.1 hx).1 (List.mem_filter.1 hx).2)
      exact ⟨this.1, this.2.1⟩
  · intro pages h
    simp only [messagesPDF] at h
    split at h
    · simp at h
    · simp only [Option.some.injEq] at h
      subst h
      obtain ⟨a, -, -, d⟩ := C56_partial 65 (fun m => cm m + 2) (msgs.filter fm)
      refine ⟨a, fun hf => ?_⟩
      have := d (by intro x hx; exact hf x (List.mem_filter.1 hx).1 (List.mem_filter.1 hx).2)
      exact ⟨this.1, this.2.1⟩

/-- non-vacuity: five items on three pages -/
example : pagesLoop 87 (fun x : Nat => 10 * x) [4, 4, 5, 2, 8] 0 [] = [[4, 4], [5, 2], [8]] := by decide

end K431
