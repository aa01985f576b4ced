import Verif.SpecPage
import Verif.PropsFunctions
import Verif.SummaryLemmas

/-! # Helper lemmas: what is on the page of a printed key -/

namespace K431
open Spec

theorem put_cols (p : Page) (y x s : Nat) (l : List Runes) : (p.put y x s l).cols = p.cols ∧ (p.put y x s l).rows = p.rows := ⟨rfl, rfl⟩

theorem put_hit {p : Page} {y x s r c : Nat} {l : List Runes} {line : Runes} {ch : Rune} (i j : Nat) (hs : 0 < s) (hr : r = y + i * s) (hc : c = x + j) (hrows : r < p.rows)
    (hcols : c < p.cols) (hl : l[i]? = some line) (hch : line[j]? = some ch) : (p.put y x s l).cell r c = ch := by
  subst hr hc
  have h1 : y + i * s - y = i * s := by omega
  have h2 : x + j - x = j := by omega
  simp only [Page.put]
  rw [if_pos ⟨by omega, by rw [h1]; exact Nat.mul_mod_left _ _, by omega, hrows, hcols⟩, h1, Nat.mul_div_cancel _ hs, h2, List.getD_eq_getElem?_getD, hl]
  simp [hch]

theorem put_miss {p : Page} {y x s r c : Nat} {l : List Runes} (h : r < y ∨ c < x ∨ (y ≤ r → x ≤ c → (r - y) % s = 0 → (l.getD ((r - y) / s) [])[c - x]? = none)) :
    (p.put y x s l).cell r c = p.cell r c := by
  simp only [Page.put]
  by_cases hc : y ≤ r ∧ (r - y) % s = 0 ∧ x ≤ c ∧ r < p.rows ∧ c < p.cols
  · rw [if_pos hc]
    rcases h with h | h | h
    · omega
    · omega
    · rw [h hc.1 hc.2.2.1 hc.2.1]; rfl
  · rw [if_neg hc]

theorem rule_miss {p : Page} {y r c : Nat} {m : Rune} (h : r ≠ y) : (p.rule y m).cell r c = p.cell r c := by
  simp only [Page.rule]
  rw [if_neg (fun h' => h h'.1)]

theorem widest_ge {l : List Runes} {i : Nat} {line : Runes} (h : l[i]? = some line) : line.length ≤ widest l := by
  unfold widest
  induction l generalizing i with
  | nil => simp at h
  | cons x xs ih =>
    simp only [List.map_cons, List.foldr_cons]
    cases i with
    | zero => simp at h; subst h; omega
    | succ i => have := ih (i := i) (by simpa using h); omega

theorem widest_getD (l : List Runes) (i : Nat) : (l.getD i []).length ≤ widest l := by
  rw [List.getD_eq_getElem?_getD]
  rcases h : l[i]? with _ | line
  · simp
  · exact widest_ge h

theorem widest_snoc (l : List Runes) : widest (l ++ [[]]) = widest l := by
  simp [widest, List.foldr_append]

theorem mem_joinWith {sep : Runes} {c : Rune} : ∀ {l : List Runes}, c ∈ joinWith sep l → c ∈ sep ∨ ∃ x ∈ l, c ∈ x := by
  intro l
  induction l with
  | nil => intro h; simp [joinWith] at h
  | cons x xs ih =>
    intro h
    by_cases hx : xs = []
    · subst hx; exact .inr ⟨x, by simp, h⟩
    · rw [joinWith_cons _ _ _ hx] at h
      rcases List.mem_append.1 h with h | h
      · rcases List.mem_append.1 h with h | h
        · exact .inr ⟨x, by simp, h⟩
        · exact .inl h
      · rcases ih h with h | ⟨y, h1, h2⟩
        · exact .inl h
        · exact .inr ⟨y, by simp [h1], h2⟩

/-- without the blanks, a line is its groups -/
theorem joinWith_ink : ∀ {l : List Runes}, (∀ x ∈ l, ∀ c ∈ x, c ≠ 32) → (joinWith [32] l).filter (fun c => c ≠ 32) = l.flatten := by
  intro l
  induction l with
  | nil => intro _; rfl
  | cons x xs ih =>
    intro h
    have hx : x.filter (fun c => c ≠ 32) = x := List.filter_eq_self.2 (fun c hc => by simpa using h x (by simp) c hc)
    by_cases hxs : xs = []
    · subst hxs; simpa [joinWith] using hx
    · rw [joinWith_cons _ _ _ hxs, List.filter_append, List.filter_append, hx, ih (fun y hy => h y (by simp [hy]))]
      simp

/-- rows with `spacing` between them, read one after the other -/
theorem spaced_rows (h : Runes → Runes) (h0 : h [] = []) (s : Nat) (hs : 0 < s) : ∀ (l : List Runes) (n : Nat), l.length * s ≤ n →
    (List.range n).flatMap (fun i => if i % s = 0 then h (l.getD (i / s) []) else []) = l.flatMap h := by
  intro l
  induction l with
  | nil =>
    intro n _
    simp only [List.flatMap_nil, List.flatMap_eq_nil_iff]
    intro i _
    simp [h0]
  | cons x xs ih =>
    intro n hn
    rw [List.length_cons, Nat.add_mul, Nat.one_mul] at hn
    obtain ⟨d, rfl⟩ : ∃ d, n = s + d := ⟨n - s, by omega⟩
    rw [List.range_add, List.flatMap_append, List.flatMap_cons]
    congr 1
    · obtain ⟨e, rfl⟩ : ∃ e, s = e + 1 := ⟨s - 1, by omega⟩
      rw [List.range_succ_eq_map, List.flatMap_cons]
      have : ((List.range e).map Nat.succ).flatMap (fun i => if i % (e + 1) = 0 then h ((x :: xs).getD (i / (e + 1)) []) else []) = [] := by
        rw [List.flatMap_eq_nil_iff]
        intro i hi
        obtain ⟨j, hj, rfl⟩ := List.mem_map.1 hi
        have hj := List.mem_range.1 hj
        rw [if_neg]
        rw [Nat.mod_eq_of_lt (by omega)]
        omega
      rw [this]
      simp
    · rw [← ih d (by omega), List.flatMap_map]
      apply List.flatMap_congr
      intro i _
      rw [Nat.add_mod_left, Nat.add_div_left _ hs]
      simp

theorem range_getD (l : Runes) (w : Nat) (hw : l.length ≤ w) (d : Rune) :
    (List.range w).map (fun j => (l[j]?).getD d) = l ++ List.replicate (w - l.length) d := by
  apply List.ext_getElem?
  intro n
  simp only [List.getElem?_map, List.getElem?_append]
  by_cases h1 : n < l.length
  · rw [if_pos h1, List.getElem?_range (by omega)]
    simp [h1]
  · rw [if_neg h1]
    by_cases h2 : n < w
    · rw [List.getElem?_range h2, List.getElem?_replicate]
      rw [if_pos (by omega)]
      simp [Nat.not_lt.1 h1]
    · rw [List.getElem?_eq_none (by simpa using h2)]
      rw [List.getElem?_eq_none (by simp; omega)]
      rfl

/-! ## The three texts -/

theorem table_lines {E : Blox} (hE : E.Lawful) : E.lines reciprocalText = reciprocalTable.map lit ∨ E.lines reciprocalText = reciprocalTable.map lit ++ [[]] := by
  refine hE.lines [10] (reciprocalTable.map lit) reciprocalText (.inr rfl) (by decide +kernel) (.inr ?_)
  rw [List.flatMap_map]; rfl

theorem footer_lines {E : Blox} (hE : E.Lawful) : E.lines (footerText E.lb) = keyFooter ∨ E.lines (footerText E.lb) = keyFooter ++ [[]] :=
  hE.lines E.lb keyFooter _ (.inl rfl) (by decide +kernel) (.inr rfl)

theorem group_lines {E : Blox} (hE : E.Lawful) {inst : Inst} {k : Key} (hg : inst.groupSize ≠ 0) (hk : ∀ c ∈ k.runes, IsLetter c) :
    (E.lines (keyGroups E.lb inst k)).flatMap (fun l => l.filter (fun c => c ≠ 32)) = k.runes := by
  obtain ⟨lines, out, h1, h2, h3, h4, h5, -, -⟩ := (C32_grouping E.lb k.runes inst.groupSize inst.keyColumns).1 (by omega)
  have hlet : ∀ l ∈ lines, ∀ g ∈ l, ∀ c ∈ g, IsLetter c := fun l hl g hgm c hc =>
    hk c (by rw [← h3]; exact List.mem_flatten.2 ⟨g, List.mem_flatten.2 ⟨l, hl, hgm⟩, hc⟩)
  have hline : ∀ l ∈ lines.map (joinWith [32]), l ≠ [] ∧ ∀ c ∈ l, c ≠ 10 ∧ c ≠ 13 ∧ validRune c = true := by
    intro l hl
    obtain ⟨x, hx, rfl⟩ := List.mem_map.1 hl
    refine ⟨?_, ?_⟩
    · intro h0
      rcases x with _ | ⟨g, gs⟩
      · exact h5 _ hx rfl
      · have hg1 : g ≠ [] := by
          obtain ⟨n, hn⟩ := List.mem_iff_getElem?.1 (List.mem_flatten.2 ⟨g :: gs, hx, List.mem_cons_self ..⟩)
          exact (h4 n g hn).1
        rcases g with _ | ⟨c, g⟩
        · exact hg1 rfl
        · rw [joinWith_head] at h0; cases h0
    · intro c hc
      rcases mem_joinWith hc with h | ⟨g, h6, h7⟩
      · simp at h; subst h; decide
      · have := hlet x hx g h6 c h7
        unfold IsLetter at this
        refine ⟨by omega, by omega, ?_⟩
        simp only [validRune]
        simp; omega
  have hout : keyGroups E.lb inst k = out := by
    unfold keyGroups
    rw [h1]
    simp only
    apply goStr_valid
    intro c hc
    rw [h2] at hc
    rcases mem_joinWith hc with h | ⟨l, h6, h7⟩
    · rcases hE.lb with h8 | h8 <;> rw [h8] at h <;> simp at h
      · subst h; decide
      · rcases h with rfl | rfl <;> decide
    · exact ((hline l h6).2 c h7).2.2
  have hfin : (lines.map (joinWith [32])).flatMap (fun l => l.filter (fun c => c ≠ 32)) = k.runes := by
    rw [List.flatMap_map, ← h3]
    have : ∀ ls : List (List Runes), (∀ l ∈ ls, ∀ g ∈ l, ∀ c ∈ g, c ≠ 32) →
        ls.flatMap (fun l => (joinWith [32] l).filter (fun c => c ≠ 32)) = ls.flatten.flatten := by
      intro ls
      induction ls with
      | nil => intro _; rfl
      | cons l ls ih =>
        intro h
        rw [List.flatMap_cons, List.flatten_cons, List.flatten_append, joinWith_ink (h l (by simp)), ih (fun x hx => h x (by simp [hx]))]
    refine this lines (fun l hl g hgm c hc => ?_)
    have := hlet l hl g hgm c hc
    unfold IsLetter at this
    omega
  rw [hout]
  rcases hE.lines E.lb _ out (.inl rfl) (fun l hl => ⟨(hline l hl).1, fun c hc => ⟨((hline l hl).2 c hc).1, ((hline l hl).2 c hc).2.1⟩⟩) (.inl h2) with h | h
  · rw [h]; exact hfin
  · rw [h, List.flatMap_append, hfin]; simp

/-! ## The drawing -/

/-- The page, with the texts and numbers given: the table begins in column `left`, the legend in row `4 + body`. -/
def drawKey (E : Blox) (hd id : Runes) (left body sp : Nat) (rt gs footer : List Runes) : Page :=
  ((((((Page.blank (77 + left) (4 + footer.length + body)).rule 0 95).put 0 (77 + left - hd.length) 1 [hd]).put 1 0 1 [id]).rule E.ruleRow E.mark).put E.top left 1 rt).put E.top 0 sp gs
    |>.put (4 + body) 0 1 footer

theorem drawKey_size (E : Blox) (hd id : Runes) (left body sp : Nat) (rt gs footer : List Runes) :
    (drawKey E hd id left body sp rt gs footer).cols = 77 + left ∧ (drawKey E hd id left body sp rt gs footer).rows = 4 + footer.length + body := ⟨rfl, rfl⟩

section
variable {E : Blox} (t : 1 < E.ruleRow ∧ E.ruleRow < E.top ∧ E.top ≤ 4) {hd id : Runes} {left body sp : Nat} {rt gs footer : List Runes}
include t

theorem drawKey_left {r c : Nat} (hr : E.top ≤ r) (hr2 : r < 4 + body) (hc : c < left) :
    (drawKey E hd id left body sp rt gs footer).cell r c = if (r - E.top) % sp = 0 then ((gs.getD ((r - E.top) / sp) [])[c]?).getD 32 else 32 := by
  obtain ⟨e, rfl⟩ : ∃ e, r = e + 3 := ⟨r - 3, by omega⟩
  have h4 : (((((Page.blank (77 + left) (4 + footer.length + body)).rule 0 95).put 0 (77 + left - hd.length) 1 [hd]).put 1 0 1 [id]).rule E.ruleRow E.mark).cell (e + 3) c = 32 := by
    rw [rule_miss (by omega), put_miss, put_miss, rule_miss (by omega)]
    · rfl
    · right; right
      intro _ _ _
      rw [Nat.div_one, Nat.sub_zero]
      rfl
    · right; right
      intro _ _ _
      rw [Nat.div_one]
      rfl
  unfold drawKey
  rw [put_miss (.inl hr2)]
  rw [Page.put]
  dsimp only
  rw [put_miss (.inr (.inl hc)), h4]
  by_cases hm : (e + 3 - E.top) % sp = 0
  · rw [if_pos ⟨hr, hm, by omega, by show e + 3 < 4 + footer.length + body; omega, by show c < 77 + left; omega⟩, if_pos hm, Nat.sub_zero]
  · rw [if_neg (fun h => hm h.2.1), if_neg hm]

theorem drawKey_table {i j : Nat} {line : Runes} {c : Rune} (hi : rt[i]? = some line) (hb : rt.length ≤ body) (hj : line[j]? = some c) (hlen : line.length ≤ 77) (hw : widest gs ≤ left) :
    (drawKey E hd id left body sp rt gs footer).cell (E.top + i) (left + j) = c := by
  have h1 := (List.getElem?_eq_some_iff.1 hi).1
  have h2 := (List.getElem?_eq_some_iff.1 hj).1
  unfold drawKey
  rw [put_miss (.inl (by omega)), put_miss]
  · exact put_hit i j (by decide) (by omega) rfl (by show E.top + i < 4 + footer.length + body; omega) (by show left + j < 77 + left; omega) hi hj
  · right; right
    intro _ _ _
    rw [List.getElem?_eq_none_iff]
    have := widest_getD gs ((E.top + i - E.top) / sp)
    omega

omit t in
theorem drawKey_legend {i j : Nat} {line : Runes} {c : Rune} (hi : footer[i]? = some line) (hj : line[j]? = some c) (hlen : line.length ≤ 77 + left) :
    (drawKey E hd id left body sp rt gs footer).cell (4 + body + i) (0 + j) = c := by
  have h1 := (List.getElem?_eq_some_iff.1 hi).1
  have h2 := (List.getElem?_eq_some_iff.1 hj).1
  unfold drawKey
  exact put_hit i j (by decide) (by omega) rfl (by show 4 + body + i < 4 + footer.length + body; omega) (by show 0 + j < 77 + left; omega) hi hj

theorem drawKey_id {j : Nat} {c : Rune} (hj : id[j]? = some c) (hlen : id.length ≤ 77 + left) :
    (drawKey E hd id left body sp rt gs footer).cell 1 (0 + j) = c := by
  have h2 := (List.getElem?_eq_some_iff.1 hj).1
  unfold drawKey
  rw [put_miss (.inl (by omega)), put_miss (.inl (by omega)), put_miss (.inl (by omega)), rule_miss (by omega)]
  exact put_hit 0 j (by decide) (by omega) rfl (by show 1 < 4 + footer.length + body; omega) (by show 0 + j < 77 + left; omega) rfl hj

theorem drawKey_head {j : Nat} {c : Rune} (hj : hd[j]? = some c) (hlen : hd.length ≤ 77 + left) :
    (drawKey E hd id left body sp rt gs footer).cell 0 (77 + left - hd.length + j) = c := by
  have h2 := (List.getElem?_eq_some_iff.1 hj).1
  unfold drawKey
  rw [put_miss (.inl (by omega)), put_miss (.inl (by omega)), put_miss (.inl (by omega)), rule_miss (by omega), put_miss (.inl (by omega))]
  exact put_hit 0 j (by decide) (by omega) rfl (by show 0 < 4 + footer.length + body; omega) (by show 77 + left - hd.length + j < 77 + left; omega) rfl hj

end

theorem pageRows_body (f rt gs sp : Nat) : ∃ body, pageRows f rt gs sp = 4 + f + body ∧ rt ≤ body ∧ gs * sp ≤ body ∧
    body ≤ max rt (gs * sp) := by
  unfold pageRows
  generalize gs * sp = n
  by_cases h : rt > n
  · exact ⟨rt, by rw [if_pos h], Nat.le_refl _, by omega, by omega⟩
  · exact ⟨n, by rw [if_neg h], by omega, Nat.le_refl _, by omega⟩

theorem pageCols_left (columns w : Nat) : ∃ left, pageCols columns 77 w = 77 + left ∧ w ≤ left ∧ columns ≤ 77 + left := by
  unfold pageCols
  by_cases h : columns > 77 + 3 + w
  · exact ⟨columns - 77, by rw [if_pos h]; omega, by omega, by omega⟩
  · exact ⟨3 + w, by rw [if_neg h]; omega, by omega, by omega⟩

/-- the page of a key, in numbers -/
theorem keyPage_draw {E : Blox} (inst : Inst) (k : Key) (rt gs footer : List Runes) (hgs : E.lines (keyGroups E.lb inst k) = gs)
    (hrt : E.lines reciprocalText = rt) (hft : E.lines (footerText E.lb) = footer) (hw : widest rt = 77) :
    ∃ left body sp, 0 < sp ∧ keyPage E inst k = drawKey E (keyHeader E.date k) k.id.val left body sp rt gs footer ∧ rt.length ≤ body ∧ gs.length * sp ≤ body ∧ widest gs ≤ left ∧
      inst.columns ≤ 77 + left ∧ sp = groupsSpacing rt.length gs.length ∧ body ≤ max rt.length (gs.length * sp) := by
  obtain ⟨body, b1, b2, b3, b4⟩ := pageRows_body footer.length rt.length gs.length (groupsSpacing rt.length gs.length)
  obtain ⟨left, c1, c2, c3⟩ := pageCols_left inst.columns (widest gs)
  refine ⟨left, body, groupsSpacing rt.length gs.length, by unfold groupsSpacing; split <;> decide, ?_, b2, b3, c2, c3, rfl, b4⟩
  have e1 : 4 + footer.length + body - footer.length = 4 + body := by omega
  have e2 : 77 + left - 77 = left := by omega
  have e3 : widest [keyHeader E.date k] = (keyHeader E.date k).length := by simp [widest]
  unfold keyPage drawKey
  rw [hgs, hrt, hft]
  dsimp only
  rw [b1, e1, hw, c1]
  unfold Page.putRight
  rw [hw, e3]
  show _ = _
  generalize keyHeader E.date k = hd
  have : ∀ p : Page, p.cols = 77 + left → p.put E.top (p.cols - 77) 1 rt = p.put E.top left 1 rt := by intro p hp; rw [hp, e2]
  rw [this _ rfl]
  rfl

theorem joinRunes_eq (sep : Runes) : ∀ l : List Runes, joinRunes sep l = joinWith sep (l.map goStr)
  | [] => rfl
  | [_] => rfl
  | x :: y :: l => by
    have := joinRunes_eq sep (y :: l)
    simp only [List.map_cons] at this ⊢
    rw [joinRunes, joinWith, this] <;> simp

end K431
