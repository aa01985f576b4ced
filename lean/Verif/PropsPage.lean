import Verif.PageLemmas
import Verif.PropsCipher

/-!
# C97: the page of a printed key
-/

namespace K431
open Spec

/-- **C97.** On the page that `Key.String` draws, whatever the length of the key and the sizes configured, nothing covers anything else: there are a row `bottom` and a column `left` such that
the characters between the head and `bottom`, left of `left`, read row by row, are the letters of the key, all of them and in order; the reciprocal table stands complete from `left` to the
right edge; the coding legend stands complete from `bottom` on, if the page is as wide as the program demands; the id of the key and, if it is no longer than the page is wide, the head with
the keepers, dates and the mark of a used key stand above. -/
theorem C97_page (E : Blox) (hE : E.Lawful) (inst : Inst) (k : Key) (hg : inst.groupSize ≠ 0) (hk : ∀ c ∈ k.runes, IsLetter c) :
    ∃ bottom left, E.top ≤ bottom ∧ bottom ≤ (keyPage E inst k).rows ∧
      readRows (keyPage E inst k) E.top (bottom - E.top) left = k.runes ∧
      (∀ (i : Nat) (line : String), reciprocalTable[i]? = some line → E.top + i < bottom ∧ left + (lit line).length = (keyPage E inst k).cols ∧ Displays (keyPage E inst k) (E.top + i) left (lit line)) ∧
      (85 ≤ inst.columns → ∀ (i : Nat) (line : Runes), keyFooter[i]? = some line → Displays (keyPage E inst k) (bottom + i) 0 line) ∧
      (k.id.val.length ≤ (keyPage E inst k).cols → Displays (keyPage E inst k) 1 0 k.id.val) ∧
      ((keyHeader E.date k).length ≤ (keyPage E inst k).cols →
        Displays (keyPage E inst k) 0 ((keyPage E inst k).cols - (keyHeader E.date k).length) (keyHeader E.date k)) := by
  have t := hE.rows
  have hgl := group_lines hE hg hk (inst := inst)
  generalize hgs : E.lines (keyGroups E.lb inst k) = gs at hgl
  have hrt := table_lines hE
  generalize hrtx : E.lines reciprocalText = rt at hrt
  have hft := footer_lines hE
  generalize hftx : E.lines (footerText E.lb) = footer at hft
  have hrw : widest rt = 77 := by
    rcases hrt with h | h
    · rw [h]; decide +kernel
    · rw [h, widest_snoc]; decide +kernel
  have hrl : 27 ≤ rt.length := by rcases hrt with h | h <;> rw [h] <;> decide
  have hfl : 4 ≤ footer.length := by rcases hft with h | h <;> rw [h] <;> decide
  have hrget : ∀ (i : Nat) (line : String), reciprocalTable[i]? = some line → i < 27 ∧ rt[i]? = some (lit line) := by
    intro i line h
    have hlt := (List.getElem?_eq_some_iff.1 h).1
    refine ⟨hlt, ?_⟩
    have h2 : (reciprocalTable.map lit)[i]? = some (lit line) := by rw [List.getElem?_map, h]; rfl
    rcases hrt with h' | h'
    · rw [h', h2]
    · rw [h', List.getElem?_append_left (by simpa using hlt), h2]
  have hfget : ∀ (i : Nat) (line : Runes), keyFooter[i]? = some line → i < 4 ∧ footer[i]? = some line := by
    intro i line h
    have hlt := (List.getElem?_eq_some_iff.1 h).1
    refine ⟨hlt, ?_⟩
    rcases hft with h' | h'
    · rw [h', h]
    · rw [h', List.getElem?_append_left hlt, h]
  have htw : ∀ line ∈ reciprocalTable, (lit line).length = 77 := by decide +kernel
  have hfw : ∀ line ∈ keyFooter, line.length ≤ 85 := by decide +kernel
  obtain ⟨left, body, sp, hsp, hpage, hb2, hb3, hw, hcl, -⟩ := keyPage_draw inst k rt gs footer hgs hrtx hftx hrw
  rw [hpage]
  have d7 := drawKey_size E (keyHeader E.date k) k.id.val left body sp rt gs footer
  refine ⟨4 + body, left, by omega, by rw [d7.2]; omega, ?_, ?_, ?_, ?_, ?_⟩
  · rw [← hgl, ← spaced_rows (fun l => l.filter (fun c => c ≠ 32)) rfl sp hsp gs (4 + body - E.top) (by omega)]
    unfold readRows
    apply List.flatMap_congr
    intro i hi
    have hi := List.mem_range.1 hi
    have hi2 : E.top + i - E.top = i := by omega
    unfold marksIn
    have : (List.range left).map ((drawKey E (keyHeader E.date k) k.id.val left body sp rt gs footer).cell (E.top + i)) =
        (List.range left).map (fun c => if i % sp = 0 then ((gs.getD (i / sp) [])[c]?).getD 32 else 32) := by
      apply List.map_congr_left
      intro c hc
      have hc := List.mem_range.1 hc
      rw [drawKey_left t (by omega) (by omega) hc, hi2]
    rw [this]
    by_cases hm : i % sp = 0
    · simp only [if_pos hm]
      rw [range_getD _ _ (by have := widest_getD gs (i / sp); omega), List.filter_append]
      simp
    · simp only [if_neg hm]
      simp
  · intro i line h
    obtain ⟨a1, a2⟩ := hrget i line h
    have a3 := htw line (List.mem_of_getElem? h)
    refine ⟨by omega, by rw [a3, d7.1]; omega, by rw [d7.2]; omega, by rw [a3, d7.1]; omega, ?_⟩
    intro j c hj
    exact drawKey_table t a2 hb2 hj (by omega) hw
  · intro hc i line h
    obtain ⟨a1, a2⟩ := hfget i line h
    have a3 := hfw line (List.mem_of_getElem? h)
    refine ⟨by rw [d7.2]; omega, by rw [d7.1]; omega, ?_⟩
    intro j c hj
    exact drawKey_legend a2 hj (by omega)
  · intro hid
    rw [d7.1] at hid
    refine ⟨by rw [d7.2]; omega, by rw [d7.1]; omega, ?_⟩
    intro j c hj
    exact drawKey_id t hj hid
  · intro hhd
    rw [d7.1] at hhd ⊢
    refine ⟨by rw [d7.2]; omega, by rw [d7.1]; omega, ?_⟩
    intro j c hj
    exact drawKey_head t hj hhd

/-- **C97**: the head says what it is to say: the keepers, separated by commas, or NIL if there are none, the two dates, and an X between the last brackets if and only if the key has been used. -/
theorem C97_head (date : Int → Runes) (k : Key) :
    ∃ who mark, keyHeader date k = lit "/ KEEPERS: " ++ who ++ lit " / EXPIRES: " ++ date k.expires ++ lit " / CREATED: " ++ date k.created ++ lit " / USED: [" ++ [mark, 93] ∧
      (k.keepers = [] → who = lit "NIL") ∧ (k.keepers ≠ [] → who = joinWith [44] (k.keepers.map (fun c => goStr c.val))) ∧ (k.used = true → mark = 88) ∧ (k.used = false → mark = 32) := by
  refine ⟨if k.keepers.length > 0 then joinRunes (lit ",") k.names else lit "NIL", if k.used then 88 else 32, ?_, ?_, ?_, ?_, ?_⟩
  · unfold keyHeader
    have h1 : lit "X" = [88] := by decide
    have h2 : lit " " = [32] := by decide
    have h3 : lit "]" = [93] := by decide
    rw [h1, h2, h3]
    by_cases hu : k.used = true <;> simp [hu]
  · intro h
    simp [h]
  · intro h
    have : k.keepers.length > 0 := List.length_pos_of_ne_nil h
    rw [if_pos this, joinRunes_eq]
    have h1 : lit "," = [44] := by decide
    simp [h1, Key.names, Function.comp_def]
  · intro h
    simp [h]
  · intro h
    simp [h]

/-- **C97**: if the groups, with a blank row after each line but the last, need no more rows than the table beside them, they stand in every other row and the rows between are blank; otherwise they stand
in successive rows.  The page is not longer than that demands. -/
theorem C97_spread (E : Blox) (hE : E.Lawful) (inst : Inst) (k : Key) :
    ∃ left spacing, (∀ (i : Nat) (line : String), reciprocalTable[i]? = some line → left + (lit line).length = (keyPage E inst k).cols) ∧
      (spacing = 2 ↔ 2 * (E.lines (keyGroups E.lb inst k)).length ≤ (E.lines reciprocalText).length + 1) ∧ (spacing = 1 ∨ spacing = 2) ∧
      (∀ (i : Nat) (line : Runes), (E.lines (keyGroups E.lb inst k))[i]? = some line → line.length ≤ left ∧ Displays (keyPage E inst k) (E.top + i * spacing) 0 line) ∧
      (spacing = 2 → ∀ (i : Nat), i < (E.lines (keyGroups E.lb inst k)).length → marksIn (keyPage E inst k) (E.top + 2 * i + 1) left = []) ∧
      (keyPage E inst k).rows ≤ 4 + (E.lines (footerText E.lb)).length + max ((E.lines reciprocalText).length + 1) (E.lines (keyGroups E.lb inst k)).length := by
  have t := hE.rows
  generalize hgs : E.lines (keyGroups E.lb inst k) = gs
  have hrt := table_lines hE
  generalize hrtx : E.lines reciprocalText = rt at hrt
  generalize hftx : E.lines (footerText E.lb) = footer
  have hrw : widest rt = 77 := by
    rcases hrt with h | h
    · rw [h]; decide +kernel
    · rw [h, widest_snoc]; decide +kernel
  have htw : ∀ line ∈ reciprocalTable, (lit line).length = 77 := by decide +kernel
  obtain ⟨left, body, sp, hsp, hpage, hb2, hb3, hw, hcl, hspe, hb4⟩ := keyPage_draw inst k rt gs footer hgs hrtx hftx hrw
  have d7 := drawKey_size E (keyHeader E.date k) k.id.val left body sp rt gs footer
  rw [hpage]
  have hsp2 : (sp = 1 ∧ ¬ 2 * gs.length ≤ rt.length + 1) ∨ (sp = 2 ∧ 2 * gs.length ≤ rt.length + 1) := by
    rw [hspe]
    unfold groupsSpacing
    split
    · exact .inr ⟨rfl, by omega⟩
    · exact .inl ⟨rfl, by omega⟩
  refine ⟨left, sp, ?_, by omega, by omega, ?_, ?_, ?_⟩
  · intro i line h
    rw [htw line (List.mem_of_getElem? h), d7.1]
    omega
  · intro i line h
    have hi := (List.getElem?_eq_some_iff.1 h).1
    have hl := widest_ge h
    have hm : (i + 1) * sp ≤ gs.length * sp := Nat.mul_le_mul_right sp hi
    rw [Nat.succ_mul] at hm
    refine ⟨by omega, by rw [d7.2]; omega, by rw [d7.1]; omega, ?_⟩
    intro j c hj
    have hjl := (List.getElem?_eq_some_iff.1 hj).1
    rw [drawKey_left t (by omega) (by omega) (by omega)]
    have e : E.top + i * sp - E.top = i * sp := by omega
    rw [e, Nat.mul_mod_left, if_pos rfl, Nat.mul_div_cancel _ hsp, List.getD_eq_getElem?_getD, h, Option.getD_some, Nat.zero_add, hj]
    rfl
  · intro h2 i hi
    subst h2
    unfold marksIn
    rw [List.filter_eq_nil_iff]
    intro c hc
    obtain ⟨j, hj, rfl⟩ := List.mem_map.1 hc
    have hj := List.mem_range.1 hj
    rw [drawKey_left t (by omega) (by omega) hj]
    have e : (E.top + 2 * i + 1 - E.top) % 2 ≠ 0 := by omega
    rw [if_neg e]
    simp
  · rw [d7.2]
    rcases hsp2 with ⟨h, _⟩ | ⟨h, _⟩ <;> subst h <;> omega

/-! ## A canvas as demanded exists -/

/-- lines end at a line feed; nothing after the last one is no line -/
def exLines : Runes → Runes → List Runes
  | l, [] => if l = [] then [] else [l]
  | l, c :: cs => if c = 10 then l :: exLines [] cs else exLines (l ++ [c]) cs

theorem exLines_append : ∀ (a l rest : Runes), (∀ c ∈ a, c ≠ 10) → exLines l (a ++ rest) = exLines (l ++ a) rest := by
  intro a
  induction a with
  | nil => intro l rest _; simp
  | cons c cs ih =>
    intro l rest h
    rw [List.cons_append, exLines, if_neg (h c (by simp)), ih _ _ (fun x hx => h x (by simp [hx]))]
    simp

/-- above the groups: the head in row 0, the id in row 1, a separator in row 3 -/
def exBlox : Blox := ⟨[10], exLines [], 3, 4, 45, fun _ => lit "011200JAN23"⟩

theorem exBlox_lawful : exBlox.Lawful := by
  refine ⟨.inl rfl, ?_, by decide⟩
  intro br ls text hbr hls htext
  left
  have hbr : br = [10] := by rcases hbr with h | h <;> exact h
  subst hbr
  show exLines [] text = ls
  rcases htext with rfl | rfl
  · induction ls with
    | nil => rfl
    | cons l ls ih =>
      obtain ⟨h1, h2⟩ := hls l (by simp)
      have ih := ih (fun x hx => hls x (by simp [hx]))
      by_cases hl : ls = []
      · subst hl
        have := exLines_append l [] [] (fun c hc => (h2 c hc).1)
        simp only [List.append_nil, List.nil_append] at this
        simp only [joinWith]
        rw [this, exLines, if_neg h1]
      · rw [joinWith_cons _ _ _ hl, List.append_assoc, exLines_append _ _ _ (fun c hc => (h2 c hc).1), List.nil_append, List.singleton_append, exLines, if_pos rfl, ih]
  · induction ls with
    | nil => rfl
    | cons l ls ih =>
      obtain ⟨h1, h2⟩ := hls l (by simp)
      have ih := ih (fun x hx => hls x (by simp [hx]))
      rw [List.flatMap_cons, List.append_assoc, exLines_append _ _ _ (fun c hc => (h2 c hc).1), List.nil_append, List.singleton_append, exLines, if_pos rfl, ih]

/-- non-vacuity: a key of ten letters in groups of five, a narrow column of groups -/
example : exBlox.Lawful ∧ ({ exInst [] with groupSize := 5, columns := 110, keyColumns := 8 } : Inst).groupSize ≠ 0 ∧ (∀ c ∈ (exKey 1 "A" "QWERTYUIOP").runes, IsLetter c) ∧
    exBlox.lines (keyGroups [10] { exInst [] with groupSize := 5, columns := 110, keyColumns := 8 } (exKey 1 "A" "QWERTYUIOP")) = [lit "QWERT", lit "YUIOP"] ∧
    keyHeader exBlox.date { exKey 1 "A" "QWERTYUIOP" with used := true } = lit "/ KEEPERS: NIL / EXPIRES: 011200JAN23 / CREATED: 011200JAN23 / USED: [X]" :=
  ⟨exBlox_lawful, by decide, by decide, by decide, by decide⟩

/-- the rows of that page, computed: one blank row between the groups, since there is room beside the table -/
example : readRows (keyPage exBlox { exInst [] with groupSize := 5, columns := 110, keyColumns := 8 } (exKey 1 "A" "QWERTYUIOP")) 4 3 33 = lit "QWERTYUIOP" := by decide +kernel

end K431
