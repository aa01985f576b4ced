import Verif.TrafficLemmas

/-! # Helper lemmas: matching `TO DE FROM DTG INSTR COUNT = TEXT` -/

namespace K431
open Spec

theorem blank_first {g r : Runes} {caps : List (Nat × Runes)} (hg : ∀ c ∈ g, c = 32) (hr : ∀ c ∈ r.head?, reSpace c = false) :
    (reBlanks.run ⟨false, g ++ r, caps⟩).head? = some ⟨false, r, caps⟩ :=
  first_star (fun c hc => (reSpace_iff c).2 (space_blank (hg c hc))) hr

/-- what follows a word: a space, or nothing but the equal sign -/
theorem after_word {g s : Runes} {ws : List Runes} {text : Runes} (hg : ∀ c ∈ g, c = 32) (hn : ws ≠ [] → g ≠ []) (h : Laid ws s) :
    ∀ c ∈ (g ++ (s ++ 61 :: text)).head?, reCall c = false := by
  intro c hc
  cases g with
  | nil =>
    have hws : ws = [] := by
      cases ws with
      | nil => rfl
      | cons => exact absurd rfl (hn (by simp))
    subst hws
    cases h
    simp at hc
    subst hc
    exact eq_not_call
  | cons x g =>
    have := hg x (by simp)
    subst this
    simp at hc
    subst hc
    decide

/-- words begin with a call character, the text after them with the equal sign -/
theorem laid_start {s : Runes} {ws : List Runes} {text : Runes} (h : Laid ws s) :
    ∀ c ∈ (s ++ 61 :: text).head?, reSpace c = false := by
  intro c hc
  cases ws with
  | nil => cases h; simp at hc; subst hc; decide
  | cons w ws =>
    obtain ⟨d, ds, rfl, hd⟩ := h.head
    simp at hc
    subst hc
    exact call_not_space ((reCall_iff d).2 (.inl hd))

theorem text_first {text : Runes} {caps : List (Nat × Runes)} (ht : 10 ∉ text) :
    ((Re.seqs [reBlanks, .cls reEq, reBlanks, reText]).run ⟨false, 61 :: text, caps⟩).head? =
      some ⟨false, [], (4, text.dropWhile reSpace) :: caps⟩ := by
  refine first_seqs (by simp) (blank_first (g := []) (by simp) (by simp; decide)) ?_
  refine first_seqs (by simp) (first_cls (by decide)) ?_
  have e : text = text.takeWhile reSpace ++ text.dropWhile reSpace := by simp
  have h1 : (reBlanks.run ⟨false, text, caps⟩).head? = some ⟨false, text.dropWhile reSpace, caps⟩ := by
    conv => lhs; rw [e]
    exact first_star (fun c hc => List.all_eq_true.1 List.all_takeWhile c hc) (dropWhile_stops _)
  refine first_seqs (by simp) h1 ?_
  have h2 : ((Re.star reAny).run ⟨false, text.dropWhile reSpace ++ [], caps⟩).head? = some ⟨false, [], caps⟩ := by
    refine first_star ?_ (by simp)
    intro c hc
    have : c ∈ text := by rw [e]; exact List.mem_append_right _ hc
    simp [reAny]
    intro e2; subst e2; exact ht this
  have := first_cap (i := 4) h2
  simp only [List.append_nil, List.length_nil, Nat.sub_zero, List.take_length] at this
  exact this

theorem count_first {count : Option Runes} {s text : Runes} {caps : List (Nat × Runes)} (ht : 10 ∉ text)
    (hc : ∀ w ∈ count, w.length ≤ 4 ∧ ∀ c ∈ w, 48 ≤ c ∧ c ≤ 57) (h : Laid count.toList s) :
    ((Re.seqs [Re.upTo (.cls reDigit) 4, reBlanks, .cls reEq, reBlanks, reText]).run ⟨false, s ++ 61 :: text, caps⟩).head? =
      some ⟨false, [], (4, text.dropWhile reSpace) :: caps⟩ := by
  have heq : ∀ c ∈ (61 :: text).head?, reDigit c = false := by
    intro c hc; simp at hc; subst hc; decide
  cases count with
  | none =>
    cases h
    refine first_seqs (by simp) (first_upTo heq 4 [] (by simp) (by simp)) (text_first ht)
  | some w =>
    obtain ⟨hw4, hwd⟩ := hc w rfl
    cases h with
    | @cons _ g s _ h0 hw hg hn h1 =>
      cases h1
      have hd : ∀ c ∈ (g ++ 61 :: text).head?, reDigit c = false := fun c hc =>
        call_digit (after_word (ws := []) (s := []) hg hn .nil c hc)
      rw [List.append_nil, List.append_assoc]
      refine first_seqs (by simp) (first_upTo hd 4 w (fun c hc => digit_iff.2 (hwd c hc)) hw4) ?_
      have := text_first (caps := caps) ht
      simp only [Re.seqs] at this ⊢
      -- blanks before the equal sign
      have hb : (reBlanks.run ⟨false, g ++ 61 :: text, caps⟩).head? = some ⟨false, 61 :: text, caps⟩ :=
        blank_first hg (by intro c hc; simp at hc; subst hc; decide)
      have hb0 : (reBlanks.run ⟨false, 61 :: text, caps⟩).head? = some ⟨false, 61 :: text, caps⟩ :=
        blank_first (g := []) (by simp) (by intro c hc; simp at hc; subst hc; decide)
      refine first_seqs (l := [.cls reEq, reBlanks, reText]) (by simp) hb ?_
      obtain ⟨u, hu, hrest⟩ : ∃ u, (reBlanks.run ⟨false, 61 :: text, caps⟩).head? = some u ∧
          ((Re.seqs [.cls reEq, reBlanks, reText]).run u).head? = some ⟨false, [], (4, text.dropWhile reSpace) :: caps⟩ := by
        refine ⟨_, hb0, ?_⟩
        have h3 : reBlanks.run ⟨false, 61 :: text, caps⟩ = [⟨false, 61 :: text, caps⟩] := by
          have : reSpace 61 = false := by decide
          simp [reBlanks, Re.run, starRun, this]
        have h4 : ((Re.seqs [reBlanks, .cls reEq, reBlanks, reText]).run ⟨false, 61 :: text, caps⟩) =
            (Re.seqs [.cls reEq, reBlanks, reText]).run ⟨false, 61 :: text, caps⟩ := by
          rw [Re.run_seqs_cons (by simp), h3]
          simp
        rw [← h4]
        exact this
      rw [hb0] at hu
      cases hu
      exact hrest

theorem instr_first {instr count : Option Runes} {s text : Runes} {caps : List (Nat × Runes)} (ht : 10 ∉ text)
    (hi : ∀ w ∈ instr, w.length ≤ 4 ∧ ∀ c ∈ w, (65 ≤ c ∧ c ≤ 90) ∨ (97 ≤ c ∧ c ≤ 122))
    (hc : ∀ w ∈ count, w.length ≤ 4 ∧ ∀ c ∈ w, 48 ≤ c ∧ c ≤ 57) (h : Laid (instr.toList ++ count.toList) s) :
    ((Re.seqs [Re.upTo (.cls reLetter) 4, reBlanks, Re.upTo (.cls reDigit) 4, reBlanks, .cls reEq, reBlanks, reText]).run
      ⟨false, s ++ 61 :: text, caps⟩).head? = some ⟨false, [], (4, text.dropWhile reSpace) :: caps⟩ := by
  cases instr with
  | none =>
    have hl : ∀ c ∈ (s ++ 61 :: text).head?, reLetter c = false := by
      intro c hcm
      cases count with
      | none => cases h; simp at hcm; subst hcm; decide
      | some w =>
        obtain ⟨_, hwd⟩ := hc w rfl
        cases h with
        | @cons _ g s _ h0 hw hg hn h1 =>
          cases w with
          | nil => exact absurd rfl h0
          | cons x xs =>
            simp at hcm
            subst hcm
            exact digit_not_letter (hwd x (by simp))
    refine first_seqs (by simp) (first_upTo hl 4 [] (by simp) (by simp)) ?_
    exact first_seqs (by simp) (blank_first (g := []) (by simp) (laid_start h)) (count_first ht hc h)
  | some w =>
    obtain ⟨hw4, hwl⟩ := hi w rfl
    cases h with
    | @cons _ g s _ h0 hw hg hn h1 =>
      rw [List.append_assoc, List.append_assoc]
      refine first_seqs (by simp) (first_upTo (fun c hc => call_letter (after_word hg hn h1 c hc)) 4 w
        (fun c hc => letter_ascii (hwl c hc)) hw4) ?_
      exact first_seqs (by simp) (blank_first hg (laid_start h1)) (count_first ht hc h1)

/-- the groups captured for the date-time group -/
def dtgCaps : Option Runes → List (Nat × Runes)
  | none => []
  | some w => [(3, w)]

theorem dtg_first {dtg instr count : Option Runes} {s text : Runes} {caps : List (Nat × Runes)} (ht : 10 ∉ text)
    (hd : ∀ w ∈ dtg, ∃ day zone month year, DtgWord w day zone month year ∧ (zone ≠ [] ∨ month = []))
    (hi : ∀ w ∈ instr, w.length ≤ 4 ∧ ∀ c ∈ w, (65 ≤ c ∧ c ≤ 90) ∨ (97 ≤ c ∧ c ≤ 122))
    (hc : ∀ w ∈ count, w.length ≤ 4 ∧ ∀ c ∈ w, 48 ≤ c ∧ c ≤ 57) (h : Laid (dtg.toList ++ instr.toList ++ count.toList) s) :
    ((Re.seqs [reDtg, reBlanks, Re.upTo (.cls reLetter) 4, reBlanks, Re.upTo (.cls reDigit) 4, reBlanks, .cls reEq, reBlanks, reText]).run
      ⟨false, s ++ 61 :: text, caps⟩).head? = some ⟨false, [], (4, text.dropWhile reSpace) :: (dtgCaps dtg ++ caps)⟩ := by
  cases dtg with
  | none =>
    have h' : Laid (instr.toList ++ count.toList) s := h
    have habs : (reDtg.run ⟨false, s ++ 61 :: text, caps⟩).head? = some ⟨false, s ++ 61 :: text, caps⟩ := by
      cases instr with
      | some w =>
        obtain ⟨_, hwl⟩ := hi w rfl
        refine dtg_absent (w := []) (by simp) ?_
        cases h' with
        | @cons _ g s _ h0 hw hg hn h1 =>
          cases w with
          | nil => exact absurd rfl h0
          | cons x xs =>
            intro c hcm
            simp at hcm
            subst hcm
            have := hwl x (by simp)
            simp [reDigit]; omega
      | none =>
        cases count with
        | none =>
          cases h'
          exact dtg_absent (w := []) (by simp) (by intro c hcm; simp at hcm; subst hcm; decide)
        | some w =>
          obtain ⟨hw4, _⟩ := hc w rfl
          cases h' with
          | @cons _ g s _ h0 hw hg hn h1 =>
            rw [List.append_assoc, List.append_assoc]
            exact dtg_absent (by omega) (fun c hc => call_digit (after_word hg hn h1 c hc))
    exact first_seqs (by simp) habs (first_seqs (by simp) (blank_first (g := []) (by simp) (laid_start h)) (instr_first ht hi hc h'))
  | some w =>
    obtain ⟨day, zone, month, year, hw1, hz⟩ := hd w rfl
    have h' : Laid (w :: (instr.toList ++ count.toList)) s := h
    cases h' with
    | @cons _ g s _ h0 hw hg hn h1 =>
      rw [List.append_assoc, List.append_assoc]
      refine first_seqs (by simp) (first_dtg hw1 hz (fun c hc => after_word hg hn h1 c hc)) ?_
      exact first_seqs (by simp) (blank_first hg (laid_start h1)) (instr_first ht hi hc h1)

theorem tail_first {dtg instr count : Option Runes} {g s text : Runes} {caps : List (Nat × Runes)} (ht : 10 ∉ text)
    (hg : ∀ c ∈ g, c = 32)
    (hd : ∀ w ∈ dtg, ∃ day zone month year, DtgWord w day zone month year ∧ (zone ≠ [] ∨ month = []))
    (hi : ∀ w ∈ instr, w.length ≤ 4 ∧ ∀ c ∈ w, (65 ≤ c ∧ c ≤ 90) ∨ (97 ≤ c ∧ c ≤ 122))
    (hc : ∀ w ∈ count, w.length ≤ 4 ∧ ∀ c ∈ w, 48 ≤ c ∧ c ≤ 57) (h : Laid (dtg.toList ++ instr.toList ++ count.toList) s) :
    ((Re.seqs tailShort).run ⟨false, g ++ (s ++ 61 :: text), caps⟩).head? =
      some ⟨false, [], (4, text.dropWhile reSpace) :: (dtgCaps dtg ++ caps)⟩ :=
  first_seqs (by simp) (blank_first hg (laid_start h)) (dtg_first ht hd hi hc h)

theorem dtg_not_de {w day zone month year : Runes} (h : DtgWord w day zone month year) : ¬ IsDe w := by
  rintro ⟨d, e, rfl, h1, _⟩
  have hl := h.day.1
  have hw := congrArg List.length h.word
  simp only [List.length_append, List.length_cons, List.length_nil] at hw
  omega

theorem digits_not_de {w : Runes} (h : ∀ c ∈ w, 48 ≤ c ∧ c ≤ 57) : ¬ IsDe w := by
  rintro ⟨d, e, rfl, h1, _⟩
  have := h d (by simp)
  omega

/-- in a list with one word DE, its place is determined -/
theorem de_place {names ws1 ws2 rest : List Runes} {de w : Runes} (hn : ∀ x ∈ names, ¬ IsDe x) (hr : ∀ x ∈ rest, ¬ IsDe x)
    (e : names ++ de :: rest = ws1 ++ w :: ws2) (hw : IsDe w) : ws1 = names ∧ w = de ∧ ws2 = rest := by
  rcases List.append_eq_append_iff.1 e with ⟨v, ev, ev2⟩ | ⟨v, ev, ev2⟩
  · cases v with
    | nil =>
      simp only [List.nil_append, List.cons.injEq] at ev2
      exact ⟨by simpa using ev, ev2.1.symm, ev2.2.symm⟩
    | cons v0 vs =>
      simp only [List.cons_append, List.cons.injEq] at ev2
      exact absurd hw (hr w (by rw [ev2.2]; simp))
  · cases v with
    | nil =>
      simp only [List.nil_append, List.cons.injEq] at ev2
      exact ⟨by simpa using ev.symm, ev2.1, ev2.2⟩
    | cons v0 vs =>
      simp only [List.cons_append, List.cons.injEq] at ev2
      exact absurd hw (hn w (by rw [ev, ev2.1]; simp))

theorem ShortForm_rest {s : Runes} {names : List Runes} {sender text : Runes} {dtg instr count : Option Runes}
    (h : ShortForm s names sender dtg instr count text) :
    (∀ x ∈ names, ¬ IsDe x) ∧ ∀ x ∈ sender :: (dtg.toList ++ instr.toList ++ count.toList), ¬ IsDe x := by
  refine ⟨fun x hx => h.notDe x (by simp [hx]), ?_⟩
  intro x hx
  simp only [List.mem_cons, List.mem_append, Option.mem_toList] at hx
  rcases hx with rfl | (hx | hx) | hx
  · exact h.notDe x (by simp)
  · obtain ⟨day, zone, month, year, hw⟩ := h.dtg x hx
    exact dtg_not_de hw
  · exact h.notDe x (by simp [Option.mem_def.1 hx])
  · exact digits_not_de (h.count x hx).2

/-- The match of a radiogram in the short form. -/
theorem short_match {U : Unicode} (hU : U.Lawful) {s : Runes} {names : List Runes} {sender text : Runes} {dtg instr count : Option Runes}
    (h : ShortForm s names sender dtg instr count text)
    (hz : ∀ w ∈ dtg, ∃ day zone month year, DtgWord w day zone month year ∧ (zone ≠ [] ∨ month = [])) (ht : 10 ∉ text) :
    ∃ caps, firstMatch s [regexpFull, regexpSemi, regexpShort, regexpMini] = some caps ∧
      vettedKeepers U [capture caps 1] = names.map (fun n => n.map U.toUpper) ∧ capture caps 2 = sender ∧
      capture caps 3 = dtg.getD [] ∧ capture caps 4 = text.dropWhile reSpace := by
  obtain ⟨hnn, hnr⟩ := ShortForm_rest h
  obtain ⟨lead, pre, de, hs, hlead, hde, hlaid⟩ := h.laid
  obtain ⟨p, q, rfl, hp, hq, hlast⟩ := Laid.split (by simp) hlaid
  have hq0 := hq
  cases hq with
  | @cons _ g1 q1 _ _ _ hg1 hn1 hq1 =>
  have hg10 : g1 ≠ [] := hn1 (by simp)
  cases hq1 with
  | @cons _ g2 q2 _ hs0 hsc hg2 hn2 hq2 =>
  obtain ⟨d, e, rfl, hd, he⟩ := hde
  have hs' : s = (lead ++ p) ++ d :: e :: (g1 ++ sender ++ (g2 ++ (q2 ++ 61 :: text))) := by rw [hs]; simp
  have hlist : ∀ x ∈ lead ++ p, ListChar x := by
    intro x hx
    rcases List.mem_append.1 hx with hx | hx
    · exact .inr (.inr (space_blank (hlead x hx)))
    · rcases hp.chars x hx with hx | hx
      · exact .inl hx
      · exact .inr (.inr (space_blank hx))
  have hlastb : ∀ x ∈ (lead ++ p).getLast?, Blank x := by
    intro x hx
    rw [List.getLast?_append, Option.mem_def, Option.or_eq_some_iff] at hx
    rcases hx with hx | ⟨_, hx⟩
    · exact space_blank (hlast x hx)
    · exact space_blank (hlead x (List.mem_of_mem_getLast? hx))
  have hg1b : ∀ x ∈ g1, Blank x := fun x hx => space_blank (hg1 x hx)
  have hstop := after_word (text := text) hg2 hn2 hq2
  have hdw : DeWord s (lead ++ p) (g1 ++ sender ++ (g2 ++ (q2 ++ 61 :: text))) := by
    refine ⟨d, e, hs', hd, he, hlastb, ?_⟩
    cases g1 with
    | nil => exact absurd rfl hg10
    | cons x xs => exact ⟨x, by simp, hg1b x (by simp)⟩
  have huniq : ∀ a' c', DeWord s a' c' → (∀ x ∈ a', ListChar x ∨ FoldsToLetter x) → a' = lead ++ p := by
    intro a' c' hd' hl'
    have h61 : 61 ∉ a' := fun hm => absurd (hl' 61 hm) (by decide)
    have hskip : ∃ a2, a' = lead ++ a2 ∧ DeWord ((p ++ ([d, e] ++ g1 ++ (sender ++ g2 ++ q2))) ++ 61 :: text) a2 c' := by
      by_cases hl0 : lead = []
      · subst hl0
        exact ⟨a', rfl, by rw [hs] at hd'; simpa using hd'⟩
      · have : DeWord ([] ++ lead ++ ((p ++ ([d, e] ++ g1 ++ (sender ++ g2 ++ q2))) ++ 61 :: text)) a' c' := by
          rw [hs] at hd'; simpa using hd'
        rcases deWord_skip (by simp) (fun x hx => space_blank (hlead x hx)) hl0 this with ⟨⟨_, _, hx, _⟩, _⟩ | ⟨a2, h1, h2⟩
        · cases hx
        · exact ⟨a2, by simpa using h1, h2⟩
    obtain ⟨a2, rfl, hd2⟩ := hskip
    obtain ⟨ws1, w, ws2, e1, hw, q', e2, h3, h4⟩ := hlaid.deWord (fun hm => h61 (by simp [hm])) hd2
    obtain ⟨rfl, _, _⟩ := de_place hnn hnr e1 hw
    congr 1
    refine (Laid.unique hp h3 ?_ ?_ e2).symm
    · intro c hc
      obtain ⟨x, xs, ex, hx⟩ := hq0.head
      rw [ex] at hc
      simp at hc
      subst hc
      intro e; subst e; exact absurd hx (by decide)
    · intro c hc
      obtain ⟨x, xs, ex, hx⟩ := h4.head
      rw [ex] at hc
      simp at hc
      subst hc
      intro e; subst e; exact absurd hx (by decide)
  have hfull : regexpFull.find s = none :=
    no_match_two_eq (l := reHead ++ [reDtg, reBlanks]) (m := [reBlanks, .star reCalls, reBlanks,
      .cls reEq, .cls reEq, reBlanks, .star reWords, reBlanks, .star reDigit, reBlanks, .cls reEq, reBlanks, reText]) h.single
  have hsemi : regexpSemi.find s = none :=
    no_match_two_eq (l := reHead ++ [reDtg, reBlanks]) (m := [reBlanks, .star reCalls, reBlanks, .star reDigit,
      reBlanks, .cls reEq, reBlanks, reText]) h.single
  have htail := fun caps => tail_first (caps := caps) ht hg2 hz h.instr h.count hq2
  have hscall : ∀ x ∈ sender, reCall x = true := fun x hx => (reCall_iff x).2 (.inl (hsc x hx))
  have hne : regexpShort.run ⟨true, s, []⟩ ≠ [] := by
    rw [short_eq, run_nonempty]
    obtain ⟨g, ws, d', e', hm, _⟩ := headMatch_of_deWord hdw (fun x hx => (reCalls_iff x).2 (.inl (hlist x hx))) rfl
      hg10 (fun x hx => (reSpace_iff x).2 (hg1b x hx)) hs0 hscall
    have hcan := (run_nonempty (r := Re.seqs tailShort) (s := ⟨false, g2 ++ (q2 ++ 61 :: text), []⟩)).1
      (by intro e; have := htail []; rw [e] at this; cases this)
    obtain ⟨b', s', hcan⟩ := hcan
    exact ⟨b', s', (head5_can (by simp [tailShort])).2 ⟨g, ws, d', e', g1, sender, _, hm, hcan⟩⟩
  obtain ⟨t, htt⟩ : ∃ t, (regexpShort.run ⟨true, s, []⟩).head? = some t := by
    rcases hr : regexpShort.run ⟨true, s, []⟩ with _ | ⟨t, ts⟩
    · exact absurd hr hne
    · exact ⟨t, rfl⟩
  refine ⟨t.caps, by simp only [firstMatch, hfull, hsemi, Re.find_here htt], ?_⟩
  obtain ⟨g, ws, d', e', ws2, call, rest, hm, hstop', hfirst⟩ := head5_first (by simp [tailShort]) short_absorbs htt
  have hdw' := hm.deWord (pre := []) rfl
  simp only [List.nil_append] at hdw'
  have hga : g ++ ws = lead ++ p := by
    refine huniq _ _ hdw' ?_
    intro x hx
    rcases List.mem_append.1 hx with hx | hx
    · exact (reCalls_iff x).1 (hm.list x hx)
    · exact .inl (.inr (.inr ((reSpace_iff x).1 (hm.blanks x hx))))
  have hcc : ws2 ++ (call ++ rest) = g1 ++ (sender ++ (g2 ++ (q2 ++ 61 :: text))) := by
    have e1 := hm.text
    rw [hga, hs'] at e1
    have := List.append_cancel_left e1
    simp only [List.cons.injEq, List.append_assoc] at this
    exact this.2.2.symm
  have hstopc : ∀ (x y : Runes), x ≠ [] → (∀ c ∈ x, reCall c = true) → ∀ c ∈ (x ++ y).head?, reSpace c = false := by
    intro x y hx hxc c hc
    cases x with
    | nil => exact absurd rfl hx
    | cons q qs => simp at hc; subst hc; exact call_not_space (hxc q (by simp))
  obtain ⟨_, h4⟩ := span_unique hm.blanks2 (hstopc call rest hm.some hm.calls)
    (fun c hc => (reSpace_iff c).2 (hg1b c hc)) (hstopc sender _ hs0 hscall) hcc
  obtain ⟨rfl, rfl⟩ := span_unique hm.calls hstop' hscall hstop h4
  rw [htail] at hfirst
  cases hfirst
  refine ⟨?_, ?_, ?_, ?_⟩
  · have : capture ((4, text.dropWhile reSpace) :: (dtgCaps dtg ++ [(2, call), (1, g)])) 1 = g := by
      cases dtg <;> rfl
    rw [this, ← vetted_blanks hU hm.blanks, hga, vetted_lead hlead, vetted_laid hU hp]
  · cases dtg <;> rfl
  · cases dtg <;> rfl
  · cases dtg <;> rfl

end K431
