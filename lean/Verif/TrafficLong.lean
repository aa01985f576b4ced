import Verif.SpacedLemmas

/-! # Helper lemmas: a radiogram whose group count has more than four digits -/

namespace K431
open Spec

theorem Spec.Spaced.deWord {ws : List Runes} {s : Runes} (h : Spaced (· = 32) ws s) : ∀ {a c : Runes}, DeWord s a c →
    a = [] ∨ ∃ w ∈ ws.tail, IsDe w := by
  induction h with
  | nil =>
    rintro a c ⟨d, e, hs, _⟩
    simp at hs
  | @cons w g s ws h0 hw hg hn h1 ih =>
    intro a c hd
    cases g with
    | nil =>
      have hws : ws = [] := by
        cases ws with
        | nil => rfl
        | cons => exact absurd rfl (hn (by simp))
      subst hws
      cases h1
      obtain ⟨d, e, hs, _, _, _, x, hx, hb⟩ := hd
      simp only [List.append_nil] at hs
      exact absurd hb (hw x (by rw [hs]; simp [List.mem_of_mem_head? hx]))
    | cons x xs =>
      rcases deWord_skip hw (fun y hy => space_blank (hg y hy)) (by simp) hd with h | ⟨a2, _, h⟩
      · exact .inl h.2
      · right
        rcases ih h with h2 | ⟨v, hv, h2⟩
        · subst h2
          cases ws with
          | nil =>
            cases h1
            obtain ⟨d, e, hs, _⟩ := h
            simp at hs
          | cons v ws =>
            refine ⟨v, by simp, ?_⟩
            cases h1 with
            | @cons _ g' s' _ h0' hw' hg' hn' h1' =>
              cases g' with
              | nil =>
                have hws : ws = [] := by
                  cases ws with
                  | nil => rfl
                  | cons => exact absurd rfl (hn' (by simp))
                subst hws
                cases h1'
                obtain ⟨d, e, hs, _, _, _, y, hy, hb⟩ := h
                simp only [List.append_nil] at hs
                exact absurd hb (hw' y (by rw [hs]; simp [List.mem_of_mem_head? hy]))
              | cons y ys =>
                rcases deWord_skip hw' (fun y hy => space_blank (hg' y hy)) (by simp) h with h | ⟨a3, h3, _⟩
                · exact h.1
                · simp at h3
        · exact ⟨v, List.mem_of_mem_tail hv, h2⟩

/-- the date of the example -/
def exDate : Runes := lit "012345ZJAN23"

theorem cls_reSpace_32 : reSpace 32 = true := by decide
theorem cls_reSpace_48 : reSpace 48 = false := by decide
theorem cls_reSpace_49 : reSpace 49 = false := by decide
theorem cls_reSpace_50 : reSpace 50 = false := by decide
theorem cls_reSpace_51 : reSpace 51 = false := by decide
theorem cls_reSpace_52 : reSpace 52 = false := by decide
theorem cls_reSpace_53 : reSpace 53 = false := by decide
theorem cls_reSpace_65 : reSpace 65 = false := by decide
theorem cls_reSpace_74 : reSpace 74 = false := by decide
theorem cls_reSpace_78 : reSpace 78 = false := by decide
theorem cls_reSpace_90 : reSpace 90 = false := by decide
theorem cls_reDigit_32 : reDigit 32 = false := by decide
theorem cls_reDigit_48 : reDigit 48 = true := by decide
theorem cls_reDigit_49 : reDigit 49 = true := by decide
theorem cls_reDigit_50 : reDigit 50 = true := by decide
theorem cls_reDigit_51 : reDigit 51 = true := by decide
theorem cls_reDigit_52 : reDigit 52 = true := by decide
theorem cls_reDigit_53 : reDigit 53 = true := by decide
theorem cls_reDigit_65 : reDigit 65 = false := by decide
theorem cls_reDigit_74 : reDigit 74 = false := by decide
theorem cls_reDigit_78 : reDigit 78 = false := by decide
theorem cls_reDigit_90 : reDigit 90 = false := by decide
theorem cls_reLetter_32 : reLetter 32 = false := by decide
theorem cls_reLetter_48 : reLetter 48 = false := by decide
theorem cls_reLetter_49 : reLetter 49 = false := by decide
theorem cls_reLetter_50 : reLetter 50 = false := by decide
theorem cls_reLetter_51 : reLetter 51 = false := by decide
theorem cls_reLetter_52 : reLetter 52 = false := by decide
theorem cls_reLetter_53 : reLetter 53 = false := by decide
theorem cls_reLetter_65 : reLetter 65 = true := by decide
theorem cls_reLetter_74 : reLetter 74 = true := by decide
theorem cls_reLetter_78 : reLetter 78 = true := by decide
theorem cls_reLetter_90 : reLetter 90 = true := by decide
theorem cls_reEq_32 : reEq 32 = false := by decide
theorem cls_reEq_48 : reEq 48 = false := by decide
theorem cls_reEq_49 : reEq 49 = false := by decide
theorem cls_reEq_50 : reEq 50 = false := by decide
theorem cls_reEq_51 : reEq 51 = false := by decide
theorem cls_reEq_52 : reEq 52 = false := by decide
theorem cls_reEq_53 : reEq 53 = false := by decide
theorem cls_reEq_65 : reEq 65 = false := by decide
theorem cls_reEq_74 : reEq 74 = false := by decide
theorem cls_reEq_78 : reEq 78 = false := by decide
theorem cls_reEq_90 : reEq 90 = false := by decide

/-- the rest of the expression after the date-time group -/
def shortRest : List Re := [reBlanks, Re.upTo (.cls reLetter) 4, reBlanks, Re.upTo (.cls reDigit) 4, reBlanks, .cls reEq, reBlanks, reText]

theorem rest_dead {c1 c2 c3 c4 c5 : Rune} {rest : Runes} {caps : List (Nat × Runes)}
    (h1 : 48 ≤ c1 ∧ c1 ≤ 57) (h2 : 48 ≤ c2 ∧ c2 ≤ 57) (h3 : 48 ≤ c3 ∧ c3 ≤ 57) (h4 : 48 ≤ c4 ∧ c4 ≤ 57) (h5 : 48 ≤ c5 ∧ c5 ≤ 57)
    (z : Runes) (hz : z ∈ [[], [50, 51], [74, 65, 78, 50, 51], [90, 74, 65, 78, 50, 51], exDate, 32 :: exDate]) :
    (Re.seqs shortRest).run ⟨false, z ++ 32 :: c1 :: c2 :: c3 :: c4 :: c5 :: rest, caps⟩ = [] := by
  have hd : ∀ c : Rune, 48 ≤ c ∧ c ≤ 57 → reDigit c = true ∧ reSpace c = false ∧ reLetter c = false ∧ reEq c = false := by
    intro c hc
    simp [reDigit, reSpace, reLetter, reEq]
    omega
  obtain ⟨d1, s1, l1, e1⟩ := hd c1 h1
  obtain ⟨d2, s2, l2, e2⟩ := hd c2 h2
  obtain ⟨d3, s3, l3, e3⟩ := hd c3 h3
  obtain ⟨d4, s4, l4, e4⟩ := hd c4 h4
  obtain ⟨d5, s5, l5, e5⟩ := hd c5 h5
  have hx : exDate = [48, 49, 50, 51, 52, 53, 90, 74, 65, 78, 50, 51] := rfl
  rw [hx] at hz
  simp only [List.mem_cons, List.not_mem_nil, or_false] at hz
  rcases hz with rfl | rfl | rfl | rfl | rfl | rfl
  all_goals
    simp [shortRest, reBlanks, Re.seqs, Re.upTo, Re.run, starRun, d1, s1, l1, e1, d2, s2, l2, e2, d3, s3, l3, e3, d4, s4, l4, e4, d5, s5, l5, e5,
      cls_reSpace_32, cls_reSpace_48, cls_reSpace_49, cls_reSpace_50, cls_reSpace_51, cls_reSpace_52, cls_reSpace_53, cls_reSpace_65, cls_reSpace_74, cls_reSpace_78, cls_reSpace_90, cls_reDigit_32, cls_reDigit_48, cls_reDigit_49, cls_reDigit_50, cls_reDigit_51, cls_reDigit_52, cls_reDigit_53, cls_reDigit_65, cls_reDigit_74, cls_reDigit_78, cls_reDigit_90, cls_reLetter_32, cls_reLetter_48, cls_reLetter_49, cls_reLetter_50, cls_reLetter_51, cls_reLetter_52, cls_reLetter_53, cls_reLetter_65, cls_reLetter_74, cls_reLetter_78, cls_reLetter_90, cls_reEq_32, cls_reEq_48, cls_reEq_49, cls_reEq_50, cls_reEq_51, cls_reEq_52, cls_reEq_53, cls_reEq_65, cls_reEq_74, cls_reEq_78, cls_reEq_90]

theorem dtg_ways (y : Runes) (caps : List (Nat × Runes)) :
    (reDtg.run ⟨false, 48 :: 49 :: 50 :: 51 :: 52 :: 53 :: 90 :: 74 :: 65 :: 78 :: 50 :: 51 :: 32 :: y, caps⟩).map (fun u => (u.atStart, u.rest)) =
      [(false, 32 :: y), (false, [50, 51] ++ 32 :: y), (false, [74, 65, 78, 50, 51] ++ 32 :: y), (false, [90, 74, 65, 78, 50, 51] ++ 32 :: y),
       (false, exDate ++ 32 :: y)] := rfl

theorem tail_dead {c1 c2 c3 c4 c5 : Rune} {rest : Runes} {caps : List (Nat × Runes)}
    (h1 : 48 ≤ c1 ∧ c1 ≤ 57) (h2 : 48 ≤ c2 ∧ c2 ≤ 57) (h3 : 48 ≤ c3 ∧ c3 ≤ 57) (h4 : 48 ≤ c4 ∧ c4 ≤ 57) (h5 : 48 ≤ c5 ∧ c5 ≤ 57) :
    (Re.seqs tailShort).run ⟨false, [32] ++ exDate ++ 32 :: c1 :: c2 :: c3 :: c4 :: c5 :: rest, caps⟩ = [] := by
  have hdead : ∀ z ∈ [[], [50, 51], [74, 65, 78, 50, 51], [90, 74, 65, 78, 50, 51], exDate, 32 :: exDate], ∀ caps,
      (Re.seqs shortRest).run ⟨false, z ++ 32 :: c1 :: c2 :: c3 :: c4 :: c5 :: rest, caps⟩ = [] := fun z hz caps =>
    rest_dead h1 h2 h3 h4 h5 z hz
  have hx : [32] ++ exDate ++ 32 :: c1 :: c2 :: c3 :: c4 :: c5 :: rest = 32 :: 48 :: 49 :: 50 :: 51 :: 52 :: 53 :: 90 :: 74 :: 65 :: 78 :: 50 :: 51 ::
    32 :: c1 :: c2 :: c3 :: c4 :: c5 :: rest := rfl
  rw [hx]
  generalize hy : c1 :: c2 :: c3 :: c4 :: c5 :: rest = y at hdead
  have hb1 : reBlanks.run ⟨false, 32 :: 48 :: 49 :: 50 :: 51 :: 52 :: 53 :: 90 :: 74 :: 65 :: 78 :: 50 :: 51 :: 32 :: y, caps⟩ =
    [⟨false, 48 :: 49 :: 50 :: 51 :: 52 :: 53 :: 90 :: 74 :: 65 :: 78 :: 50 :: 51 :: 32 :: y, caps⟩,
     ⟨false, 32 :: 48 :: 49 :: 50 :: 51 :: 52 :: 53 :: 90 :: 74 :: 65 :: 78 :: 50 :: 51 :: 32 :: y, caps⟩] := rfl
  have hno : reDtg.run ⟨false, 32 :: 48 :: 49 :: 50 :: 51 :: 52 :: 53 :: 90 :: 74 :: 65 :: 78 :: 50 :: 51 :: 32 :: y, caps⟩ =
    [⟨false, 32 :: 48 :: 49 :: 50 :: 51 :: 52 :: 53 :: 90 :: 74 :: 65 :: 78 :: 50 :: 51 :: 32 :: y, caps⟩] := rfl
  have hsplit : tailShort = reBlanks :: reDtg :: shortRest := rfl
  rw [hsplit, Re.run_seqs_cons (by simp), hb1]
  simp only [List.flatMap_cons, List.flatMap_nil, List.append_nil, List.append_eq_nil_iff]
  constructor
  · rw [Re.run_seqs_cons (by simp [shortRest]), List.flatMap_eq_nil_iff]
    intro u hu
    have hm := List.mem_map_of_mem (f := fun u : ReSt => (u.atStart, u.rest)) hu
    rw [dtg_ways] at hm
    obtain ⟨b, r, cs⟩ := u
    simp only [List.mem_cons, List.not_mem_nil, or_false, Prod.mk.injEq] at hm
    rcases hm with ⟨rfl, rfl⟩ | ⟨rfl, rfl⟩ | ⟨rfl, rfl⟩ | ⟨rfl, rfl⟩ | ⟨rfl, rfl⟩
    · exact hdead [] (by simp) cs
    · exact hdead [50, 51] (by simp) cs
    · exact hdead [74, 65, 78, 50, 51] (by simp) cs
    · exact hdead [90, 74, 65, 78, 50, 51] (by simp) cs
    · exact hdead exDate (by simp) cs
  · rw [Re.run_seqs_cons (by simp [shortRest]), hno]
    simp only [List.flatMap_cons, List.flatMap_nil, List.append_nil]
    exact hdead (32 :: exDate) (by simp) caps

theorem exDate_word : DtgWord exDate (lit "012345") (lit "Z") (lit "JAN") (lit "23") :=
  ⟨by decide, by decide, .inr ⟨90, by decide, by decide⟩, .inr ⟨lit "JAN", by decide, by decide, by decide⟩, .inr (by decide)⟩

/-- the shortest form takes the group count for the beginning of the text -/
theorem mini_first {x : Rune} {xs : Runes} {caps : List (Nat × Runes)} (hx : 48 ≤ x ∧ x ≤ 57) (h10 : 10 ∉ xs) :
    ((Re.seqs tailMini).run ⟨false, [32] ++ (exDate ++ ([32] ++ x :: xs)), caps⟩).head? = some ⟨false, [], (4, x :: xs) :: (3, exDate) :: caps⟩ := by
  have hxs : ∀ c ∈ (x :: xs).head?, reSpace c = false := by
    intro c hc
    simp at hc
    subst hc
    simp [reSpace]; omega
  refine first_seqs (by simp) (blank_first (by simp) (by
    have : exDate = 48 :: lit "12345ZJAN23" := by decide
    rw [this]
    intro c hc
    simp at hc
    subst hc
    decide)) ?_
  refine first_seqs (by simp) (first_dtg exDate_word (.inl (by decide)) (by intro c hc; simp at hc; subst hc; decide)) ?_
  refine first_seqs (by simp) (blank_first (by simp) hxs) ?_
  refine first_seqs (by simp) (first_star (w := []) (by simp) (by
    intro c hc
    simp at hc
    subst hc
    simp [reEq]; omega)) ?_
  refine first_seqs (by simp) (blank_first (g := []) (by simp) hxs) ?_
  have h2 : ((Re.star reAny).run ⟨false, (x :: xs) ++ [], (3, exDate) :: caps⟩).head? = some ⟨false, [], (3, exDate) :: caps⟩ := by
    refine first_star ?_ (by simp)
    intro c hc
    simp [reAny]
    rcases List.mem_cons.1 hc with rfl | hc
    · omega
    · intro e2; subst e2; exact h10 hc
  have := first_cap (i := 4) h2
  simp only [List.append_nil, List.length_nil, Nat.sub_zero, List.take_length] at this
  exact this

/-- the text that is read from `DE B 012345ZJAN23 count ...` when the count has more than four digits -/
theorem long_match {ws : List Runes} {s xs : Runes} {c1 c2 c3 c4 c5 : Rune}
    (hs : s = lit "DE B " ++ exDate ++ 32 :: c1 :: c2 :: c3 :: c4 :: c5 :: xs) (hw : Spaced (· = 32) ws s) (hde : ∀ w ∈ ws.tail, ¬ IsDe w)
    (h1 : 48 ≤ c1 ∧ c1 ≤ 57) (h2 : 48 ≤ c2 ∧ c2 ≤ 57) (h3 : 48 ≤ c3 ∧ c3 ≤ 57) (h4 : 48 ≤ c4 ∧ c4 ≤ 57) (h5 : 48 ≤ c5 ∧ c5 ≤ 57)
    (h10 : 10 ∉ xs) (hsingle : ¬ ∃ x y, s = x ++ 61 :: 61 :: y) :
    ∃ caps, firstMatch s [regexpFull, regexpSemi, regexpShort, regexpMini] = some caps ∧ capture caps 2 = [66] ∧
      capture caps 4 = c1 :: c2 :: c3 :: c4 :: c5 :: xs := by
  have hadr : Addressed s [] [32] (lit "B") ([32] ++ (exDate ++ 32 :: c1 :: c2 :: c3 :: c4 :: c5 :: xs)) := by
    refine ⟨⟨68, 69, ?_, .inl rfl, .inl rfl, by simp, 32, by simp, by decide⟩, by simp, by decide, by simp, by decide, by decide, ?_⟩
    · rw [hs]; rfl
    · intro x hx
      simp at hx
      subst hx
      decide
  obtain ⟨caps, hf⟩ := firstMatch_exists hadr
  refine ⟨caps, hf, ?_⟩
  have hf' : firstMatch s (theTails.map (fun x => Re.seqs (head5 x))) = some caps := hf
  obtain ⟨tail, ht, n, t, hfind, rfl⟩ := firstMatch_some hf'
  obtain ⟨q1, q2, _⟩ := theTails_ok tail ht
  obtain ⟨pre, s', hpre, _, hrun, _⟩ := Re.findFrom_some hfind
  obtain ⟨g, ws0, d', e', ws2, call, rest, hm, hstop, hfirst⟩ := head5_first q1 q2 hrun
  have hdw := hm.deWord (pre := pre) (by simp)
  rw [← hpre] at hdw
  have hnil : pre ++ (g ++ ws0) = [] := by
    rcases hw.deWord hdw with h | ⟨w, hw1, hw2⟩
    · rw [← List.append_assoc]; exact h
    · exact absurd hw2 (hde w hw1)
  simp only [List.append_eq_nil_iff] at hnil
  obtain ⟨rfl, rfl, rfl⟩ := hnil
  have htext := hm.text
  simp only [List.nil_append] at htext hpre
  rw [← hpre, hs] at htext
  have hD : lit "DE B " = [68, 69, 32, 66, 32] := by decide
  rw [hD] at htext
  simp only [List.cons_append, List.nil_append, List.cons.injEq, List.append_assoc] at htext
  obtain ⟨_, _, htext⟩ := htext
  have hcc : [32] ++ ([66] ++ ([32] ++ (exDate ++ 32 :: c1 :: c2 :: c3 :: c4 :: c5 :: xs))) = ws2 ++ (call ++ rest) := by
    simpa using htext
  have hstopc : ∀ (x y : Runes), x ≠ [] → (∀ c ∈ x, reCall c = true) → ∀ c ∈ (x ++ y).head?, reSpace c = false := by
    intro x y hx hxc c hc
    cases x with
    | nil => exact absurd rfl hx
    | cons q qs => simp at hc; subst hc; exact call_not_space (hxc q (by simp))
  obtain ⟨_, h6⟩ := span_unique hm.blanks2 (hstopc call rest hm.some hm.calls) (x := ws2)
    (by decide) (hstopc [66] _ (by simp) (by decide)) hcc.symm
  obtain ⟨rfl, rfl⟩ := span_unique hm.calls hstop (by decide) (by intro c hc; simp at hc; subst hc; decide) h6
  have hshort := tail_dead (rest := xs) (caps := [(2, [66]), (1, [])]) h1 h2 h3 h4 h5
  simp only [theTails, List.mem_cons, List.not_mem_nil, or_false] at ht
  rcases ht with rfl | rfl | rfl | rfl
  · exfalso
    have := no_match_two_eq (l := reHead ++ [reDtg, reBlanks]) (m := [reBlanks, .star reCalls, reBlanks,
      .cls reEq, .cls reEq, reBlanks, .star reWords, reBlanks, .star reDigit, reBlanks, .cls reEq, reBlanks, reText]) hsingle
    have hfind' : regexpFull.find s = some (n, t) := hfind
    have this' : regexpFull.find s = none := this
    rw [hfind'] at this'
    cases this'
  · exfalso
    have := no_match_two_eq (l := reHead ++ [reDtg, reBlanks]) (m := [reBlanks, .star reCalls, reBlanks, .star reDigit,
      reBlanks, .cls reEq, reBlanks, reText]) hsingle
    have hfind' : regexpSemi.find s = some (n, t) := hfind
    have this' : regexpSemi.find s = none := this
    rw [hfind'] at this'
    cases this'
  · exfalso
    rw [List.append_assoc] at hshort
    rw [hshort] at hfirst
    cases hfirst
  · have := mini_first (x := c1) (xs := c2 :: c3 :: c4 :: c5 :: xs) (caps := [(2, [66]), (1, [])]) h1 (by
      intro hm
      simp only [List.mem_cons] at hm
      rcases hm with hm | hm | hm | hm | hm
      · omega
      · omega
      · omega
      · omega
      · exact h10 hm)
    rw [show [32] ++ (exDate ++ 32 :: c1 :: c2 :: c3 :: c4 :: c5 :: xs) = [32] ++ (exDate ++ ([32] ++ c1 :: c2 :: c3 :: c4 :: c5 :: xs)) from rfl] at hfirst
    rw [this] at hfirst
    cases hfirst
    exact ⟨rfl, rfl⟩

end K431
