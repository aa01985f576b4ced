import Verif.FormTrail

/-! # Helper lemmas: matching the full and the semi-full form of a radiogram -/

namespace K431
open Spec

theorem documented_not_de {w : Runes} (h : DocumentedDtg w) : ¬ IsDe w := by
  obtain ⟨day, zone, month, year, hw, _⟩ := h
  exact dtg_not_de hw

/-- the words after DE are not DE -/
theorem Spec.Heading.rest {pre : Runes} {names : List Runes} {sender : Runes} {dtg : Option Runes} (h : Heading pre names sender dtg) :
    (∀ x ∈ names, ¬ IsDe x) ∧ ∀ x ∈ sender :: dtg.toList, ¬ IsDe x := by
  refine ⟨fun x hx => h.notDe x (by simp [hx]), ?_⟩
  intro x hx
  simp only [List.mem_cons, Option.mem_toList] at hx
  rcases hx with rfl | hx
  · exact h.notDe x (by simp)
  · exact documented_not_de (h.dtg x hx)

/-- The match of an expression whose tail matches what follows the sender. -/
theorem heading_match {U : Unicode} (hU : U.Lawful) {tail : List Re} (h0 : tail ≠ []) (hab : (Re.seqs tail).Absorbs)
    {pre : Runes} {names : List Runes} {sender : Runes} {dtg : Option Runes} {after x : Runes} (h : Heading pre names sender dtg)
    (htail : ∀ caps g q, (∀ c ∈ g, c = 32) → Laid dtg.toList q →
      ((Re.seqs tail).run ⟨false, g ++ (q ++ 61 :: after), caps⟩).head? = some ⟨false, [], (4, x) :: (dtgCaps dtg ++ caps)⟩) :
    ∃ n t, (Re.seqs (head5 tail)).find (pre ++ 61 :: after) = some (n, t) ∧
      vettedKeepers U [capture t.caps 1] = names.map (fun n => n.map U.toUpper) ∧ capture t.caps 2 = sender ∧
      capture t.caps 3 = dtg.getD [] ∧ capture t.caps 4 = x := by
  obtain ⟨hnn, hnr⟩ := h.rest
  obtain ⟨lead, words, de, rfl, hlead, hde, hlaid⟩ := h.laid
  obtain ⟨p, q, rfl, hp, hq, hlast⟩ := Laid.split (by simp) hlaid
  have hq0 := hq
  cases hq with
  | @cons _ g1 q1 _ _ _ hg1 hn1 hq1 =>
  have hg10 : g1 ≠ [] := hn1 (by simp)
  cases hq1 with
  | @cons _ g2 q2 _ hs0 hsc hg2 hn2 hq2 =>
  obtain ⟨d, e, rfl, hd, he⟩ := hde
  generalize hs : lead ++ (p ++ ([d, e] ++ g1 ++ (sender ++ g2 ++ q2))) ++ 61 :: after = s
  have hs' : s = (lead ++ p) ++ d :: e :: (g1 ++ sender ++ (g2 ++ (q2 ++ 61 :: after))) := by rw [← hs]; simp
  have hlist : ∀ x ∈ lead ++ p, ListChar x := by
    intro x hx
    rcases List.mem_append.1 hx with hx | hx
    · exact .inr (.inr (space_blank (hlead x hx)))
    · rcases hp.chars x hx with hx | hx
      · exact .inl hx
      · exact .inr (.inr (space_blank hx))
  have hlastb : ∀ x ∈ (lead ++ p).getLast?, Blank x := by
    intro x hx
    rw [List.getLast?_append, Option.mem_def, Option.or_eq_some_iff] at hx
    rcases hx with hx | ⟨_, hx⟩
    · exact space_blank (hlast x hx)
    · exact space_blank (hlead x (List.mem_of_mem_getLast? hx))
  have hg1b : ∀ x ∈ g1, Blank x := fun x hx => space_blank (hg1 x hx)
  have hstop := after_word (text := after) hg2 hn2 hq2
  have hdw : DeWord s (lead ++ p) (g1 ++ sender ++ (g2 ++ (q2 ++ 61 :: after))) := by
    refine ⟨d, e, hs', hd, he, hlastb, ?_⟩
    cases g1 with
    | nil => exact absurd rfl hg10
    | cons x xs => exact ⟨x, by simp, hg1b x (by simp)⟩
  have huniq : ∀ a' c', DeWord s a' c' → (∀ x ∈ a', ListChar x ∨ FoldsToLetter x) → a' = lead ++ p := by
    intro a' c' hd' hl'
    have h61 : 61 ∉ a' := fun hm => absurd (hl' 61 hm) (by decide)
    have hskip : ∃ a2, a' = lead ++ a2 ∧ DeWord ((p ++ ([d, e] ++ g1 ++ (sender ++ g2 ++ q2))) ++ 61 :: after) a2 c' := by
      by_cases hl0 : lead = []
      · subst hl0
        exact ⟨a', rfl, by rw [← hs] at hd'; simpa using hd'⟩
      · have : DeWord ([] ++ lead ++ ((p ++ ([d, e] ++ g1 ++ (sender ++ g2 ++ q2))) ++ 61 :: after)) a' c' := by
          rw [← hs] at hd'; simpa using hd'
        rcases deWord_skip (by simp) (fun x hx => space_blank (hlead x hx)) hl0 this with ⟨⟨_, _, hx, _⟩, _⟩ | ⟨a2, h1, h2⟩
        · cases hx
        · exact ⟨a2, by simpa using h1, h2⟩
    obtain ⟨a2, rfl, hd2⟩ := hskip
    obtain ⟨ws1, w, ws2, e1, hw, q', e2, h3, h4⟩ := hlaid.deWord (fun hm => h61 (by simp [hm])) hd2
    obtain ⟨rfl, _, _⟩ := de_place hnn hnr e1 hw
    congr 1
    refine (Laid.unique hp h3 ?_ ?_ e2).symm
    · intro c hc
      obtain ⟨x, xs, ex, hx⟩ := hq0.head
      rw [ex] at hc
      simp at hc
      subst hc
      intro e; subst e; exact absurd hx (by decide)
    · intro c hc
      obtain ⟨x, xs, ex, hx⟩ := h4.head
      rw [ex] at hc
      simp at hc
      subst hc
      intro e; subst e; exact absurd hx (by decide)
  have htail' := fun caps => htail caps g2 q2 hg2 hq2
  have hscall : ∀ x ∈ sender, reCall x = true := fun x hx => (reCall_iff x).2 (.inl (hsc x hx))
  have hne : (Re.seqs (head5 tail)).run ⟨true, s, []⟩ ≠ [] := by
    rw [run_nonempty]
    obtain ⟨g, ws, d', e', hm, _⟩ := headMatch_of_deWord hdw (fun x hx => (reCalls_iff x).2 (.inl (hlist x hx))) rfl
      hg10 (fun x hx => (reSpace_iff x).2 (hg1b x hx)) hs0 hscall
    have hcan := (run_nonempty (r := Re.seqs tail) (s := ⟨false, g2 ++ (q2 ++ 61 :: after), []⟩)).1
      (by intro e; have := htail' []; rw [e] at this; cases this)
    obtain ⟨b', s', hcan⟩ := hcan
    exact ⟨b', s', (head5_can h0).2 ⟨g, ws, d', e', g1, sender, _, hm, hcan⟩⟩
  obtain ⟨t, htt⟩ : ∃ t, ((Re.seqs (head5 tail)).run ⟨true, s, []⟩).head? = some t := by
    rcases hr : (Re.seqs (head5 tail)).run ⟨true, s, []⟩ with _ | ⟨t, ts⟩
    · exact absurd hr hne
    · exact ⟨t, rfl⟩
  refine ⟨0, t, Re.find_here htt, ?_⟩
  obtain ⟨g, ws, d', e', ws2, call, rest, hm, hstop', hfirst⟩ := head5_first h0 hab htt
  have hdw' := hm.deWord (pre := []) rfl
  simp only [List.nil_append] at hdw'
  have hga : g ++ ws = lead ++ p := by
    refine huniq _ _ hdw' ?_
    intro x hx
    rcases List.mem_append.1 hx with hx | hx
    · exact (reCalls_iff x).1 (hm.list x hx)
    · exact .inl (.inr (.inr ((reSpace_iff x).1 (hm.blanks x hx))))
  have hcc : ws2 ++ (call ++ rest) = g1 ++ (sender ++ (g2 ++ (q2 ++ 61 :: after))) := by
    have e1 := hm.text
    rw [hga, hs'] at e1
    have := List.append_cancel_left e1
    simp only [List.cons.injEq, List.append_assoc] at this
    exact this.2.2.symm
  have hstopc : ∀ (x y : Runes), x ≠ [] → (∀ c ∈ x, reCall c = true) → ∀ c ∈ (x ++ y).head?, reSpace c = false := by
    intro x y hx hxc c hc
    cases x with
    | nil => exact absurd rfl hx
    | cons q qs => simp at hc; subst hc; exact call_not_space (hxc q (by simp))
  obtain ⟨_, h4⟩ := span_unique hm.blanks2 (hstopc call rest hm.some hm.calls)
    (fun c hc => (reSpace_iff c).2 (hg1b c hc)) (hstopc sender _ hs0 hscall) hcc
  obtain ⟨rfl, rfl⟩ := span_unique hm.calls hstop' hscall hstop h4
  rw [htail'] at hfirst
  cases hfirst
  refine ⟨?_, ?_, ?_, ?_⟩
  · have : capture ((4, x) :: (dtgCaps dtg ++ [(2, call), (1, g)])) 1 = g := by
      cases dtg <;> rfl
    rw [this, ← vetted_blanks hU hm.blanks, hga, vetted_lead hlead, vetted_laid hU hp]
  · cases dtg <;> rfl
  · cases dtg <;> rfl
  · cases dtg <;> rfl

/-- blanks, date-time group and blanks -/
theorem dtg_blanks_first {l : List Re} (hl : l ≠ []) {dtg : Option Runes} {after x : Runes} (hd : ∀ w ∈ dtg, DocumentedDtg w)
    (hrest : ∀ caps, ((Re.seqs l).run ⟨false, 61 :: after, caps⟩).head? = some ⟨false, [], (4, x) :: caps⟩)
    (caps : List (Nat × Runes)) (g q : Runes) (hg : ∀ c ∈ g, c = 32) (hq : Laid dtg.toList q) :
    ((Re.seqs (reBlanks :: reDtg :: reBlanks :: l)).run ⟨false, g ++ (q ++ 61 :: after), caps⟩).head? =
      some ⟨false, [], (4, x) :: (dtgCaps dtg ++ caps)⟩ := by
  have heq : ∀ c ∈ (61 :: after).head?, reSpace c = false := by intro c hc; simp at hc; subst hc; decide
  refine first_seqs (by simp) (blank_first hg (laid_start hq)) ?_
  cases dtg with
  | none =>
    cases hq
    refine first_seqs (by simp) (dtg_absent (w := []) (by simp) (by intro c hc; simp at hc; subst hc; decide)) ?_
    exact first_seqs hl (blank_first (g := []) (by simp) heq) (hrest caps)
  | some w =>
    obtain ⟨day, zone, month, year, hw, hz⟩ := hd w rfl
    have hq' : Laid [w] q := hq
    cases hq' with
    | @cons _ g2 s _ h0 hwc hg2 hn h1 =>
      cases h1
      rw [List.append_nil, List.append_assoc]
      refine first_seqs (by simp) (first_dtg hw hz (fun c hc => after_word (ws := []) (s := []) hg2 hn .nil c hc)) ?_
      exact first_seqs hl (blank_first hg2 heq) (hrest _)

theorem eq_first {l : List Re} (hl : l ≠ []) {r : Runes} {caps : List (Nat × Runes)} {t : ReSt}
    (h : ((Re.seqs l).run ⟨false, r, caps⟩).head? = some t) : ((Re.seqs (.cls reEq :: l)).run ⟨false, 61 :: r, caps⟩).head? = some t :=
  first_seqs hl (first_cls (by decide)) h

/-- blanks and a greedy repetition that includes them take everything up to the next equal sign -/
theorem blanks_star_first {l : List Re} (hl : l ≠ []) {p : Rune → Bool} (hp : ∀ c, reSpace c = true → p c = true) {w r : Runes}
    {caps : List (Nat × Runes)} {t : ReSt} (hw : ∀ c ∈ w, p c = true) (hr : ∀ c ∈ r.head?, p c = false)
    (h : ((Re.seqs l).run ⟨false, r, caps⟩).head? = some t) :
    ((Re.seqs (reBlanks :: .star p :: reBlanks :: l)).run ⟨false, w ++ r, caps⟩).head? = some t := by
  have hrs : ∀ c ∈ r.head?, reSpace c = false := by
    intro c hc
    rcases hs : reSpace c with _ | _
    · rfl
    · rw [← hr c hc, hp c hs]
  have e : w ++ r = w.takeWhile reSpace ++ (w.dropWhile reSpace ++ r) := by rw [← List.append_assoc]; simp
  have h1 : (reBlanks.run ⟨false, w ++ r, caps⟩).head? = some ⟨false, w.dropWhile reSpace ++ r, caps⟩ := by
    rw [e]
    refine first_star (fun c hc => List.all_eq_true.1 List.all_takeWhile c hc) ?_
    intro c hc
    rcases hd : w.dropWhile reSpace with _ | ⟨y, ys⟩
    · rw [hd] at hc; exact hrs c hc
    · have := dropWhile_stops (p := reSpace) w y (by rw [hd]; rfl)
      rw [hd] at hc
      simp at hc
      subst hc
      exact this
  refine first_seqs (by simp) h1 ?_
  refine first_seqs (by simp) (first_star (fun c hc => hw c ((List.dropWhile_suffix reSpace).subset hc)) hr) ?_
  exact first_seqs hl (blank_first (g := []) (by simp) hrs) h

theorem last_text_first {text : Runes} {caps : List (Nat × Runes)} (ht : 10 ∉ text) :
    ((Re.seqs [.cls reEq, reBlanks, reText]).run ⟨false, 61 :: text, caps⟩).head? = some ⟨false, [], (4, text.dropWhile reSpace) :: caps⟩ := by
  have h := text_first (caps := caps) ht
  have h3 : reBlanks.run ⟨false, 61 :: text, caps⟩ = [⟨false, 61 :: text, caps⟩] := by
    have : reSpace 61 = false := by decide
    simp [reBlanks, Re.run, starRun, this]
  rw [Re.run_seqs_cons (by simp), h3] at h
  simpa using h

theorem list_calls {c : Rune} (h : ListChar c) : reCalls c = true := (reCalls_iff c).2 (.inl h)

theorem eq_head {p : Rune → Bool} (hp : p 61 = false) {r : Runes} : ∀ c ∈ (61 :: r).head?, p c = false := by
  intro c hc; simp at hc; subst hc; exact hp

theorem space_calls (c : Rune) (h : reSpace c = true) : reCalls c = true := by simp [reCalls, h]
theorem space_words (c : Rune) (h : reSpace c = true) : reWords c = true := by simp [reWords, h]

/-- instruction, count and text -/
theorem counted_first {instr count gap text : Runes} {caps : List (Nat × Runes)} (ht : 10 ∉ text)
    (hi : ∀ c ∈ instr, (65 ≤ c ∧ c ≤ 90) ∨ (97 ≤ c ∧ c ≤ 122) ∨ Blank c) (hc : ∀ c ∈ count, 48 ≤ c ∧ c ≤ 57) (hg : ∀ c ∈ gap, Blank c) :
    ((Re.seqs [reBlanks, .star reWords, reBlanks, .star reDigit, reBlanks, .cls reEq, reBlanks, reText]).run
      ⟨false, instr ++ count ++ gap ++ 61 :: text, caps⟩).head? = some ⟨false, [], (4, text.dropWhile reSpace) :: caps⟩ := by
  have hiw : ∀ c ∈ instr, reWords c = true := by
    intro c h
    rcases hi c h with h | h | h
    · simp [reWords, letter_ascii (.inl h)]
    · simp [reWords, letter_ascii (.inr h)]
    · exact space_words c ((reSpace_iff c).2 h)
  have hgs : ∀ c ∈ gap, reSpace c = true := fun c h => (reSpace_iff c).2 (hg c h)
  have hend := last_text_first (caps := caps) ht
  have hblank : ∀ {g r : Runes}, (∀ c ∈ g, reSpace c = true) → (∀ c ∈ r.head?, reSpace c = false) →
      (reBlanks.run ⟨false, g ++ r, caps⟩).head? = some ⟨false, r, caps⟩ := fun h1 h2 => first_star h1 h2
  cases count with
  | nil =>
    rw [List.append_nil]
    refine blanks_star_first (by simp) space_words (w := instr ++ gap) (r := 61 :: text) ?_ (eq_head (by decide)) ?_
    · intro c h
      rcases List.mem_append.1 h with h | h
      · exact hiw c h
      · exact space_words c (hgs c h)
    · refine first_seqs (by simp) (first_star (w := []) (by simp) (eq_head (by decide))) ?_
      exact first_seqs (by simp) (hblank (g := []) (by simp) (eq_head (by decide))) hend
  | cons y ys =>
    have e : instr ++ y :: ys ++ gap ++ 61 :: text = instr ++ (y :: ys ++ (gap ++ 61 :: text)) := by simp
    rw [e]
    have hy := hc y (by simp)
    refine blanks_star_first (by simp) space_words hiw ?_ ?_
    · intro c h
      simp at h
      subst h
      simp [reWords, digit_not_letter hy, reSpace]
      omega
    · have hgd : ∀ c ∈ (gap ++ 61 :: text).head?, reDigit c = false := by
        intro c h
        cases gap with
        | nil => exact eq_head (by decide) c h
        | cons z zs =>
          simp at h
          subst h
          have := hg z (by simp)
          simp only [Blank] at this
          simp [reDigit]; omega
      refine first_seqs (by simp) (first_star (fun c h => digit_iff.2 (hc c h)) hgd) ?_
      exact first_seqs (by simp) (hblank hgs (eq_head (by decide))) hend

/-- The match of a radiogram in the full form. -/
theorem full_match {U : Unicode} (hU : U.Lawful) {s : Runes} {names : List Runes} {sender text : Runes} {dtg : Option Runes}
    (h : FullForm s names sender dtg text) (ht : 10 ∉ text) :
    ∃ caps, firstMatch s [regexpFull, regexpSemi, regexpShort, regexpMini] = some caps ∧
      vettedKeepers U [capture caps 1] = names.map (fun n => n.map U.toUpper) ∧ capture caps 2 = sender ∧
      capture caps 3 = dtg.getD [] ∧ capture caps 4 = text.dropWhile reSpace := by
  obtain ⟨pre, addr, instr, count, gap, rfl, hh, ha, hi, hc, hg⟩ := h.form
  have hrest : ∀ caps, ((Re.seqs [.cls reEq, .cls reEq, reBlanks, .star reCalls, reBlanks,
      .cls reEq, .cls reEq, reBlanks, .star reWords, reBlanks, .star reDigit, reBlanks, .cls reEq, reBlanks, reText]).run
      ⟨false, 61 :: 61 :: (addr ++ 61 :: 61 :: (instr ++ count ++ gap ++ 61 :: text)), caps⟩).head? =
      some ⟨false, [], (4, text.dropWhile reSpace) :: caps⟩ := by
    intro caps
    refine eq_first (by simp) (eq_first (by simp) ?_)
    refine blanks_star_first (by simp) space_calls (fun c h => list_calls (ha c h)) (eq_head (by decide)) ?_
    exact eq_first (by simp) (eq_first (by simp) (counted_first ht hi hc hg))
  obtain ⟨n, t, hf, h1, h2, h3, h4⟩ := heading_match hU (tail := tailFull) (by simp [tailFull]) full_absorbs hh
    (dtg_blanks_first (by simp) hh.dtg hrest)
  exact ⟨t.caps, by rw [full_eq]; simp only [firstMatch, hf], h1, h2, h3, h4⟩

/-- the full form needs two pairs of equal signs -/
theorem can_eq_pairs : ∀ (l m : List Re) {b b' : Bool} {s s' : Runes}, m ≠ [] →
    (Re.seqs (l ++ .cls reEq :: .cls reEq :: m)).Can b s b' s' → ∃ x y b1, s = x ++ 61 :: 61 :: y ∧ (Re.seqs m).Can b1 y b' s' := by
  intro l
  induction l with
  | nil =>
    intro m b b' s s' hm h
    rw [List.nil_append, Re.can_seqs_cons (by simp)] at h
    obtain ⟨b1, s1, ⟨_, c, rfl, hc⟩, h⟩ := h
    rw [Re.can_seqs_cons hm] at h
    obtain ⟨b2, s2, ⟨_, c2, rfl, hc2⟩, h⟩ := h
    have hc' : c = 61 := by simpa [reEq] using hc
    have hc2' : c2 = 61 := by simpa [reEq] using hc2
    subst hc' hc2'
    exact ⟨[], s2, b2, rfl, h⟩
  | cons a as ih =>
    intro m b b' s s' hm h
    rw [List.cons_append, Re.can_seqs_cons (by simp)] at h
    obtain ⟨b1, s1, h1, h2⟩ := h
    obtain ⟨w, rfl, _⟩ := h1.suffix
    obtain ⟨x, y, b2, rfl, h3⟩ := ih m hm h2
    exact ⟨w ++ x, y, b2, by simp, h3⟩

theorem full_pairs {s : Runes} {n : Nat} {t : ReSt} (h : regexpFull.find s = some (n, t)) : ∃ x y z, s = x ++ 61 :: 61 :: (y ++ 61 :: 61 :: z) := by
  obtain ⟨pre, s', rfl, _, h, _⟩ := Re.findFrom_some h
  have hc := (Re.can_iff _ _ _ _).1 ⟨t, List.mem_of_mem_head? h, rfl, rfl⟩
  obtain ⟨x, y, b1, e, h1⟩ := can_eq_pairs (reHead ++ [reDtg, reBlanks]) [reBlanks, .star reCalls, reBlanks,
      .cls reEq, .cls reEq, reBlanks, .star reWords, reBlanks, .star reDigit, reBlanks, .cls reEq, reBlanks, reText] (by simp) hc
  obtain ⟨x', y', _, rfl, _⟩ := can_eq_pairs [reBlanks, .star reCalls, reBlanks]
    [reBlanks, .star reWords, reBlanks, .star reDigit, reBlanks, .cls reEq, reBlanks, reText] (by simp) h1
  simp only at e
  exact ⟨pre ++ x, x', y', by rw [e]; simp⟩

theorem Spec.Heading.no_eq {pre : Runes} {names : List Runes} {sender : Runes} {dtg : Option Runes} (h : Heading pre names sender dtg) : 61 ∉ pre := by
  obtain ⟨lead, words, de, rfl, hlead, hde, hlaid⟩ := h.laid
  intro hm
  rcases List.mem_append.1 hm with hm | hm
  · exact absurd (hlead 61 hm) (by decide)
  · rcases hlaid.chars 61 hm with h | h
    · exact absurd h (by decide)
    · exact absurd h (by decide)

/-- the first equal sign is in one place -/
theorem first_eq_unique {pre a x b : Runes} (h1 : 61 ∉ pre) (e : pre ++ 61 :: a = x ++ 61 :: b) : 
    (x = pre ∧ a = b) ∨ ∃ v, x = pre ++ 61 :: v ∧ a = v ++ 61 :: b := by
  rcases List.append_eq_append_iff.1 e with ⟨v, e1, e2⟩ | ⟨v, e1, e2⟩
  · cases v with
    | nil => simp at e2; exact .inl ⟨by simpa using e1, e2⟩
    | cons y ys =>
      simp only [List.cons_append, List.cons.injEq] at e2
      obtain ⟨rfl, rfl⟩ := e2
      exact .inr ⟨ys, e1, rfl⟩
  · cases v with
    | nil => simp at e2; exact .inl ⟨by simpa using e1.symm, e2.symm⟩
    | cons y ys =>
      simp only [List.cons_append, List.cons.injEq] at e2
      exact absurd (by rw [e1, ← e2.1]; simp) h1

theorem double_after {p r : Runes} (hp : 61 ∉ p) (h : DoubleEqual (p ++ r)) : DoubleEqual r := by
  induction p with
  | nil => exact h
  | cons c p ih =>
    refine ih (fun hm => hp (by simp [hm])) ?_
    obtain ⟨x, y, e⟩ := h
    cases x with
    | nil =>
      simp at e
      exact absurd (by simp [e.1]) hp
    | cons d x =>
      simp only [List.cons_append, List.cons.injEq] at e
      exact ⟨x, y, e.2⟩

/-- The match of a radiogram in the semi-full form. -/
theorem semi_match {U : Unicode} (hU : U.Lawful) {s : Runes} {names : List Runes} {sender text : Runes} {dtg : Option Runes}
    (h : SemiForm s names sender dtg text) (ht : 10 ∉ text) :
    ∃ caps, firstMatch s [regexpFull, regexpSemi, regexpShort, regexpMini] = some caps ∧
      vettedKeepers U [capture caps 1] = names.map (fun n => n.map U.toUpper) ∧ capture caps 2 = sender ∧
      capture caps 3 = dtg.getD [] ∧ capture caps 4 = text.dropWhile reSpace := by
  obtain ⟨pre, addr, rfl, hh, ha⟩ := h.form
  have haeq : 61 ∉ addr := fun hm => absurd (ha 61 hm) (by decide)
  have hfull : regexpFull.find (pre ++ 61 :: 61 :: (addr ++ 61 :: text)) = none := by
    rcases hf : regexpFull.find (pre ++ 61 :: 61 :: (addr ++ 61 :: text)) with _ | ⟨n, t⟩
    · rfl
    · exfalso
      obtain ⟨x, y, z, e⟩ := full_pairs hf
      rcases first_eq_unique hh.no_eq e with ⟨rfl, e1⟩ | ⟨v, rfl, e1⟩
      · simp only [List.cons.injEq, true_and] at e1
        exact h.single (double_after haeq ⟨y, z, e1⟩)
      · cases v with
        | nil =>
          simp only [List.nil_append, List.cons.injEq, true_and] at e1
          have : DoubleEqual (addr ++ 61 :: text) := ⟨61 :: y, z, e1⟩
          exact h.single (double_after haeq this)
        | cons w v =>
          simp only [List.cons_append, List.cons.injEq] at e1
          exact h.single (double_after haeq ⟨v, y ++ 61 :: 61 :: z, e1.2⟩)
  have hrest : ∀ caps, ((Re.seqs [.cls reEq, .cls reEq, reBlanks, .star reCalls, reBlanks, .star reDigit, reBlanks, .cls reEq, reBlanks, reText]).run
      ⟨false, 61 :: 61 :: (addr ++ 61 :: text), caps⟩).head? = some ⟨false, [], (4, text.dropWhile reSpace) :: caps⟩ := by
    intro caps
    refine eq_first (by simp) (eq_first (by simp) ?_)
    refine blanks_star_first (by simp) space_calls (fun c h => list_calls (ha c h)) (eq_head (by decide)) ?_
    refine first_seqs (by simp) (first_star (w := []) (by simp) (eq_head (by decide))) ?_
    exact first_seqs (by simp) (blank_first (g := []) (by simp) (eq_head (by decide))) (last_text_first ht)
  obtain ⟨n, t, hf, h1, h2, h3, h4⟩ := heading_match hU (tail := tailSemi) (by simp [tailSemi]) semi_absorbs hh
    (dtg_blanks_first (by simp) hh.dtg hrest)
  rw [← semi_eq] at hf
  exact ⟨t.caps, by simp only [firstMatch, hfull, hf], h1, h2, h3, h4⟩

end K431
