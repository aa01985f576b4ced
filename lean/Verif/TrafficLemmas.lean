import Verif.RadioMatch
import Verif.SpecTraffic

/-! # Helper lemmas: which way the short form of a radiogram is matched first -/

namespace K431
open Spec

/-! ## The way that is tried first -/

theorem first_seq {a b : Re} {s u t : ReSt} (h1 : (a.run s).head? = some u) (h2 : (b.run u).head? = some t) :
    ((Re.seq a b).run s).head? = some t := by
  simp only [Re.run]
  rcases ha : a.run s with _ | ⟨x, xs⟩
  · rw [ha] at h1; cases h1
  · rw [ha] at h1
    simp only [List.head?_cons, Option.some.injEq] at h1
    subst h1
    rw [List.flatMap_cons, List.head?_append, h2]
    rfl

theorem first_seqs {a : Re} {l : List Re} (hl : l ≠ []) {s u t : ReSt} (h1 : (a.run s).head? = some u)
    (h2 : ((Re.seqs l).run u).head? = some t) : ((Re.seqs (a :: l)).run s).head? = some t := by
  cases l with
  | nil => exact absurd rfl hl
  | cons x xs => exact first_seq h1 h2

theorem first_star {p : Rune → Bool} {w r : Runes} {caps : List (Nat × Runes)} (hw : ∀ c ∈ w, p c = true)
    (hr : ∀ c ∈ r.head?, p c = false) : ((Re.star p).run ⟨false, w ++ r, caps⟩).head? = some ⟨false, r, caps⟩ := by
  simp only [Re.run]
  obtain ⟨b', l, hl⟩ := starRun_head p (w ++ r) false
  have hb : b' = false := by
    have hm : (b', (w ++ r).dropWhile p) ∈ starRun p false (w ++ r) := by rw [hl]; simp
    obtain ⟨_, _, _, hb⟩ := mem_starRun hm
    simpa using hb
  rw [hl, dropWhile_all hw hr, hb]
  rfl

theorem first_cls {p : Rune → Bool} {c : Rune} {r : Runes} {b : Bool} {caps : List (Nat × Runes)} (hc : p c = true) :
    ((Re.cls p).run ⟨b, c :: r, caps⟩).head? = some ⟨false, r, caps⟩ := by
  simp [Re.run, hc]

theorem first_opt_take {a : Re} {s t : ReSt} (h : (a.run s).head? = some t) : ((Re.opt a).run s).head? = some t := by
  simp only [Re.run]
  rw [List.head?_append, h]
  rfl

theorem first_opt_skip {a : Re} {s : ReSt} (h : a.run s = []) : ((Re.opt a).run s).head? = some s := by
  simp [Re.run, h]

theorem first_cap {a : Re} {i : Nat} {s t : ReSt} (h : (a.run s).head? = some t) :
    ((Re.cap i a).run s).head? = some { t with caps := (i, s.rest.take (s.rest.length - t.rest.length)) :: t.caps } := by
  simp only [Re.run, List.head?_map, h]
  rfl

theorem first_upTo {p : Rune → Bool} {r : Runes} {caps : List (Nat × Runes)} (hr : ∀ c ∈ r.head?, p c = false) :
    ∀ (n : Nat) (w : Runes), (∀ c ∈ w, p c = true) → w.length ≤ n →
    ((Re.upTo (.cls p) n).run ⟨false, w ++ r, caps⟩).head? = some ⟨false, r, caps⟩ := by
  intro n
  induction n with
  | zero =>
    intro w _ hl
    have : w = [] := List.length_eq_zero_iff.1 (by omega)
    subst this
    rfl
  | succ n ih =>
    intro w hw hl
    cases w with
    | nil =>
      refine first_opt_skip ?_
      cases r with
      | nil => rfl
      | cons c cs => simp [Re.run, hr c (by simp)]
    | cons c cs =>
      exact first_opt_take (first_seq (first_cls (hw c (by simp))) (ih cs (fun x hx => hw x (by simp [hx])) (by simpa using hl)))

theorem first_times {p : Rune → Bool} {r : Runes} {caps : List (Nat × Runes)} :
    ∀ (w : Runes), w ≠ [] → (∀ c ∈ w, p c = true) →
    ((Re.times (.cls p) w.length).run ⟨false, w ++ r, caps⟩).head? = some ⟨false, r, caps⟩ := by
  intro w
  induction w with
  | nil => intro h; exact absurd rfl h
  | cons c cs ih =>
    intro _ hw
    cases cs with
    | nil => exact first_cls (hw c (by simp))
    | cons d ds =>
      exact first_seq (first_cls (hw c (by simp))) (ih (by simp) (fun x hx => hw x (by simp [hx])))

/-! ## The date-time group -/

theorem digit_iff {c : Rune} : reDigit c = true ↔ 48 ≤ c ∧ c ≤ 57 := by simp [reDigit]

theorem letter_ascii {c : Rune} (h : (65 ≤ c ∧ c ≤ 90) ∨ (97 ≤ c ∧ c ≤ 122)) : reLetter c = true := by
  simp [reLetter]; omega

theorem first_word {r : Runes} {caps : List (Nat × Runes)} : ∀ (us w : Runes), us ≠ [] → InEitherCase us w →
    ((Re.seqs (us.map (fun u => .cls (reLit u)))).run ⟨false, w ++ r, caps⟩).head? = some ⟨false, r, caps⟩ := by
  intro us
  induction us with
  | nil => intro w h; exact absurd rfl h
  | cons u us ih =>
    rintro w _ ⟨hl, hp⟩
    cases w with
    | nil => simp at hl
    | cons c cs =>
      have hc : reLit u c = true := by
        have := hp (u, c) (by simp)
        simp [reLit]; simp only at this; omega
      have h2 : InEitherCase us cs := ⟨by simpa using hl, fun p hp' => hp p (by simp [hp'])⟩
      cases us with
      | nil =>
        have : cs = [] := List.length_eq_zero_iff.1 (by simpa using hl)
        subst this
        exact first_cls hc
      | cons v vs => exact first_seq (first_cls hc) (ih cs (by simp) h2)

/-- all runs of a sequence of `n` classes end after `n` runes, in the same state -/
theorem run_classes {n : Nat} : ∀ (l : List (Rune → Bool)) (s t : ReSt), l.length = n → t ∈ (Re.seqs (l.map .cls)).run s → 0 < n →
    t = ⟨false, s.rest.drop n, s.caps⟩ := by
  induction n with
  | zero => intro l s t _ _ h; omega
  | succ n ih =>
    intro l s t hl ht _
    cases l with
    | nil => simp at hl
    | cons p ps =>
      have one : ∀ u ∈ (Re.cls p).run s, u = ⟨false, s.rest.drop 1, s.caps⟩ := by
        intro u hu
        simp only [Re.run] at hu
        cases hr : s.rest with
        | nil => rw [hr] at hu; simp at hu
        | cons c cs =>
          rw [hr] at hu
          by_cases hc : p c = true
          · simp [hc] at hu; rw [hu]; simp
          · simp [hc] at hu
      cases ps with
      | nil =>
        have : n = 0 := by simpa using hl.symm
        subst this
        exact one t ht
      | cons q qs =>
        simp only [List.map_cons, Re.seqs, Re.run, List.mem_flatMap] at ht
        obtain ⟨u, hu, ht⟩ := ht
        rw [one u hu] at ht
        have := ih (q :: qs) _ t (by simpa using hl) ht (by simp at hl; omega)
        rw [this]
        simp

theorem run_alts_mem : ∀ (l : List Re) (s t : ReSt), l ≠ [] → (t ∈ (Re.alts l).run s ↔ ∃ a ∈ l, t ∈ a.run s) := by
  intro l
  induction l with
  | nil => intro s t h; exact absurd rfl h
  | cons a as ih =>
    intro s t _
    cases as with
    | nil => simp [Re.alts]
    | cons b bs =>
      simp only [Re.alts, Re.run, List.mem_append, ih s t (by simp)]
      simp

/-- the names of the months in the expression -/
def monthWords : List String := ["JAN", "FEB", "MAR", "APR", "MAY", "MAJ", "JUN", "JUL", "AUG", "SEP", "OCT", "OKT", "NOV", "DEC"]

theorem first_month {month r : Runes} {caps : List (Nat × Runes)} (h : ∃ mo ∈ months, InEitherCase mo month) :
    ((Re.alts (monthWords.map reWord)).run ⟨false, month ++ r, caps⟩).head? = some ⟨false, r, caps⟩ := by
  obtain ⟨mo, hmo, hc⟩ := h
  obtain ⟨w, hw, rfl⟩ := List.mem_map.1 hmo
  have hlen : ∀ w ∈ monthWords, (lit w).length = 3 := by decide
  have h3 : month.length = 3 := by rw [hc.1]; exact hlen w hw
  have hall : ∀ t ∈ (Re.alts (monthWords.map reWord)).run ⟨false, month ++ r, caps⟩, t = ⟨false, r, caps⟩ := by
    intro t ht
    obtain ⟨a, ha, ht⟩ := (run_alts_mem _ _ _ (by simp [monthWords])).1 ht
    obtain ⟨v, hv, rfl⟩ := List.mem_map.1 ha
    have e : reWord v = Re.seqs (((lit v).map reLit).map Re.cls) := by
      unfold reWord
      rw [List.map_map]
      rfl
    rw [e] at ht
    have := run_classes (n := 3) _ _ t (by rw [List.length_map]; exact hlen v hv) ht (by omega)
    rw [this]
    simp only [ReSt.mk.injEq, true_and, and_true]
    rw [← h3, List.drop_left]
  have hmem : ⟨false, r, caps⟩ ∈ (Re.alts (monthWords.map reWord)).run ⟨false, month ++ r, caps⟩ := by
    rw [run_alts_mem _ _ _ (by simp [monthWords])]
    exact ⟨reWord w, List.mem_map.2 ⟨w, hw, rfl⟩, List.mem_of_mem_head? (first_word (lit w) month (by
      intro e; have := hlen w hw; rw [e] at this; cases this) hc)⟩
  cases hr : (Re.alts (monthWords.map reWord)).run ⟨false, month ++ r, caps⟩ with
  | nil => rw [hr] at hmem; cases hmem
  | cons t ts =>
    rw [hall t (by rw [hr]; simp)]
    rfl

theorem month_skip {r : Runes} {caps : List (Nat × Runes)} (h : ∀ c ∈ r.head?, reLetter c = false) :
    (Re.alts (monthWords.map reWord)).run ⟨false, r, caps⟩ = [] := by
  rw [List.eq_nil_iff_forall_not_mem]
  intro t ht
  obtain ⟨a, ha, ht⟩ := (run_alts_mem _ _ _ (by simp [monthWords])).1 ht
  obtain ⟨v, hv, rfl⟩ := List.mem_map.1 ha
  have hx : ∀ v ∈ monthWords, ∃ u us, lit v = u :: us ∧ 65 ≤ u ∧ u ≤ 90 ∧ us ≠ [] := by
    have : ∀ v ∈ monthWords, ∃ u ∈ (lit v).head?, 65 ≤ u ∧ u ≤ 90 ∧ (lit v).tail ≠ [] := by decide
    intro v hv
    obtain ⟨u, hu, h1, h2, h3⟩ := this v hv
    cases hl : lit v with
    | nil => rw [hl] at hu; simp at hu
    | cons a as =>
      rw [hl] at hu h3
      simp at hu
      subst hu
      exact ⟨a, as, rfl, h1, h2, h3⟩
  obtain ⟨u, us, e, h1, h2, h3⟩ := hx v hv
  unfold reWord at ht
  rw [e, List.map_cons, Re.run_seqs_cons (by simpa using h3), List.mem_flatMap] at ht
  obtain ⟨x, hx, _⟩ := ht
  simp only [Re.run] at hx
  cases r with
  | nil => simp at hx
  | cons c cs =>
    have hn : reLit u c = false := by
      rcases hq : reLit u c with _ | _
      · rfl
      · have : reLetter c = true := by
          simp [reLit] at hq
          simp [reLetter]; omega
        rw [h c (by simp)] at this; cases this
    simp [hn] at hx

theorem digit_not_letter {c : Rune} (h : 48 ≤ c ∧ c ≤ 57) : reLetter c = false := by
  simp [reLetter]; omega

theorem call_letter {c : Rune} (h : reCall c = false) : reLetter c = false := by
  rcases hl : reLetter c with _ | _
  · rfl
  · simp [reCall, hl] at h

theorem call_digit {c : Rune} (h : reCall c = false) : reDigit c = false := by
  rcases hl : reDigit c with _ | _
  · rfl
  · simp [reCall, hl] at h

/-- A date-time group with a time zone or without a month is matched as a whole. -/
theorem first_dtg {w day zone month year r : Runes} {caps : List (Nat × Runes)} (h : DtgWord w day zone month year)
    (hz : zone ≠ [] ∨ month = []) (hr : ∀ c ∈ r.head?, reCall c = false) :
    (reDtg.run ⟨false, w ++ r, caps⟩).head? = some ⟨false, r, (3, w) :: caps⟩ := by
  have hyl : ∀ c ∈ (year ++ r).head?, reLetter c = false := by
    rcases h.year with hy | ⟨_, hy⟩
    · subst hy; intro c hc; exact call_letter (hr c (by simpa using hc))
    · cases hyr : year with
      | nil => intro c hc; exact call_letter (hr c (by simpa [hyr] using hc))
      | cons y ys => intro c hc; simp at hc; subst hc; exact digit_not_letter (hy y (by simp [hyr]))
  have e1 : w ++ r = day ++ (zone ++ (month ++ (year ++ r))) := by rw [h.word]; simp
  have s1 : ((Re.times (.cls reDigit) 6).run ⟨false, w ++ r, caps⟩).head? = some ⟨false, zone ++ (month ++ (year ++ r)), caps⟩ := by
    rw [e1, ← h.day.1]
    exact first_times day (by intro e; have := h.day.1; rw [e] at this; cases this) (fun c hc => digit_iff.2 (h.day.2 c hc))
  have s2 : ((Re.opt (.cls reLetter)).run ⟨false, zone ++ (month ++ (year ++ r)), caps⟩).head? = some ⟨false, month ++ (year ++ r), caps⟩ := by
    rcases h.zone with hz0 | ⟨z, hz0, hz1⟩
    · have hm : month = [] := hz.resolve_left (by simp [hz0])
      subst hz0 hm
      refine first_opt_skip ?_
      cases hyr : year ++ r with
      | nil => rfl
      | cons y ys => simp [Re.run, hyl y (by simp [hyr])]
    · subst hz0
      exact first_opt_take (first_cls (letter_ascii hz1))
  have s3 : ((Re.opt (Re.alts (monthWords.map reWord))).run ⟨false, month ++ (year ++ r), caps⟩).head? = some ⟨false, year ++ r, caps⟩ := by
    rcases h.month with hm | hm
    · subst hm
      exact first_opt_skip (month_skip hyl)
    · exact first_opt_take (first_month hm)
  have s4 : ((Re.opt (Re.times (.cls reDigit) 2)).run ⟨false, year ++ r, caps⟩).head? = some ⟨false, r, caps⟩ := by
    rcases h.year with hy | ⟨hy2, hy⟩
    · subst hy
      refine first_opt_skip ?_
      cases r with
      | nil => rfl
      | cons c cs => simp [Re.run, Re.times, call_digit (hr c (by simp))]
    · have := first_times (p := reDigit) (r := r) (caps := caps) year (by intro e; rw [e] at hy2; cases hy2)
        (fun c hc => digit_iff.2 (hy c hc))
      rw [hy2] at this
      exact first_opt_take this
  have e2 : (w ++ r).take ((w ++ r).length - r.length) = w := by simp
  have := first_cap (i := 3) (first_seqs (l := [.opt (.cls reLetter), .opt (Re.alts (monthWords.map reWord)),
    .opt (Re.times (.cls reDigit) 2)]) (by simp) s1 (first_seqs (by simp) s2 (first_seqs (by simp) s3 s4)))
  simp only [e2] at this
  exact first_opt_take this

/-- fewer than six digits are no date-time group -/
theorem times_short {p : Rune → Bool} {r : Runes} {caps : List (Nat × Runes)} (hr : ∀ c ∈ r.head?, p c = false) :
    ∀ (w : Runes) (n : Nat), w.length < n → (Re.times (.cls p) n).run ⟨false, w ++ r, caps⟩ = [] := by
  intro w
  induction w with
  | nil =>
    intro n hn
    have one : (Re.cls p).run ⟨false, r, caps⟩ = [] := by
      cases r with
      | nil => rfl
      | cons c cs => simp [Re.run, hr c (by simp)]
    match n, hn with
    | 1, _ => exact one
    | n + 2, _ =>
      show ((Re.cls p).run ⟨false, r, caps⟩).flatMap (Re.times (.cls p) (n + 1)).run = []
      rw [one]
      rfl
  | cons c cs ih =>
    intro n hn
    match n, hn with
    | n + 2, hn =>
      simp only [Re.times, Re.run, List.cons_append]
      by_cases hc : p c = true
      · simp only [hc, if_true, List.flatMap_cons, List.flatMap_nil, List.append_nil]
        exact ih (n + 1) (by simpa using hn)
      · simp [hc]

theorem dtg_absent {w r : Runes} {caps : List (Nat × Runes)} (hw : w.length < 6) (hr : ∀ c ∈ r.head?, reDigit c = false) :
    (reDtg.run ⟨false, w ++ r, caps⟩).head? = some ⟨false, w ++ r, caps⟩ := by
  refine first_opt_skip ?_
  have : (Re.times (.cls reDigit) 6).run ⟨false, w ++ r, caps⟩ = [] := times_short hr w 6 hw
  simp only [Re.run, Re.seqs]
  rw [this]
  rfl

/-! ## InWords and spaces -/

theorem Spec.Laid.chars {ws : List Runes} {s : Runes} (h : Laid ws s) : ∀ c ∈ s, CallChar c ∨ c = 32 := by
  induction h with
  | nil => intro c hc; cases hc
  | cons _ hw hg _ _ ih =>
    intro c hc
    simp only [List.mem_append] at hc
    rcases hc with (hc | hc) | hc
    · exact .inl (hw c hc)
    · exact .inr (hg c hc)
    · exact ih c hc

theorem Spec.Laid.word {ws : List Runes} {s : Runes} (h : Laid ws s) : ∀ w ∈ ws, w ≠ [] ∧ ∀ c ∈ w, CallChar c := by
  induction h with
  | nil => intro w hw; cases hw
  | cons h0 hw _ _ _ ih =>
    intro v hv
    rcases List.mem_cons.1 hv with rfl | hv
    · exact ⟨h0, hw⟩
    · exact ih v hv

theorem Spec.Laid.head {w : Runes} {ws : List Runes} {s : Runes} (h : Laid (w :: ws) s) : ∃ c cs, s = c :: cs ∧ CallChar c := by
  cases h with
  | @cons _ g s _ h0 hw hg _ _ =>
    cases w with
    | nil => exact absurd rfl h0
    | cons c cs => exact ⟨c, cs ++ g ++ s, by simp, hw c (by simp)⟩

/-- taking the words apart -/
theorem Spec.Laid.split : ∀ {xs ys : List Runes} {s : Runes}, ys ≠ [] → Laid (xs ++ ys) s →
    ∃ p q, s = p ++ q ∧ Laid xs p ∧ Laid ys q ∧ ∀ c ∈ p.getLast?, c = 32 := by
  intro xs
  induction xs with
  | nil => intro ys s _ h; exact ⟨[], s, rfl, .nil, h, by simp⟩
  | cons x xs ih =>
    intro ys s hy h
    cases h with
    | @cons _ g s _ h0 hw hg hn h1 =>
      obtain ⟨p, q, rfl, h2, h3, h4⟩ := ih hy h1
      have hg0 := hn (by simp [hy])
      refine ⟨x ++ g ++ p, q, by simp, .cons h0 hw hg (fun _ => hg0) h2, h3, ?_⟩
      intro c hc
      rw [List.getLast?_append, Option.mem_def, Option.or_eq_some_iff] at hc
      rcases hc with hc | ⟨_, hc⟩
      · exact h4 c hc
      · rw [List.getLast?_append, Option.or_eq_some_iff] at hc
        rcases hc with hc | ⟨hc, _⟩
        · exact hg c (List.mem_of_mem_getLast? hc)
        · exact absurd (List.getLast?_eq_none_iff.1 hc) hg0

theorem space_blank {c : Rune} (h : c = 32) : Blank c := by subst h; decide

/-- a word DE is at the beginning of a word or after the spaces that follow it -/
theorem deWord_skip {w g s2 a c : Runes} (hw : ∀ x ∈ w, ¬ Blank x) (hg : ∀ x ∈ g, Blank x) (hg0 : g ≠ [])
    (h : DeWord (w ++ g ++ s2) a c) : (IsDe w ∧ a = []) ∨ ∃ a2, a = w ++ g ++ a2 ∧ DeWord s2 a2 c := by
  obtain ⟨d, e, hs, h1, h2, h3, x, hx, h4⟩ := h
  have hdb : ¬ Blank d := by simp only [Blank]; omega
  have heb : ¬ Blank e := by simp only [Blank]; omega
  rcases List.append_eq_append_iff.1 hs with ⟨v, ev, ev2⟩ | ⟨v, ev, ev2⟩
  · -- `a` goes beyond the spaces
    right
    refine ⟨v, ev, d, e, ev2, h1, h2, ?_, x, hx, h4⟩
    intro y hy
    apply h3 y
    rw [ev, List.getLast?_append, Option.mem_def.1 hy]
    rfl
  · -- `a` ends within the word or the spaces
    cases v with
    | nil =>
      right
      refine ⟨[], by simpa using ev.symm, d, e, by simpa using ev2.symm, h1, h2, by simp, x, hx, h4⟩
    | cons v0 vs =>
      simp only [List.cons_append, List.cons.injEq] at ev2
      obtain ⟨rfl, ev2⟩ := ev2
      -- `d` is part of the word
      rcases List.append_eq_append_iff.1 ev with ⟨u, eu, eu2⟩ | ⟨u, eu, eu2⟩
      · exfalso
        exact hdb (hg d (by rw [eu2]; simp))
      · cases u with
        | nil =>
          exfalso
          simp only [List.nil_append] at eu2
          exact hdb (hg d (by rw [← eu2]; simp))
        | cons u0 us =>
          simp only [List.cons_append, List.cons.injEq] at eu2
          obtain ⟨rfl, eu2⟩ := eu2
          left
          have ha : a = [] := by
            rcases List.eq_nil_or_concat a with ha | ⟨a', z, ha⟩
            · exact ha
            · exfalso
              exact hw z (by rw [eu, ha]; simp) (h3 z (by rw [ha]; simp))
          subst ha
          refine ⟨⟨d, e, ?_, h1, h2⟩, rfl⟩
          rw [eu]
          simp only [List.nil_append, List.cons.injEq, true_and]
          -- then comes `e`
          cases us with
          | nil =>
            exfalso
            simp only [List.nil_append] at eu2
            cases g with
            | nil => exact hg0 rfl
            | cons g0 gs =>
              rw [eu2] at ev2
              simp only [List.cons_append, List.cons.injEq] at ev2
              exact heb (hg e (by rw [ev2.1]; simp))
          | cons u1 us =>
            rw [eu2] at ev2
            simp only [List.cons_append, List.cons.injEq] at ev2
            obtain ⟨rfl, ev2⟩ := ev2
            cases us with
            | nil => rfl
            | cons u2 us =>
              exfalso
              simp only [List.cons_append] at ev2
              rw [ev2] at hx
              simp only [List.head?_cons, Option.mem_def, Option.some.injEq] at hx
              subst hx
              exact hw u2 (by rw [eu]; simp) h4

/-- no word DE within the last word before an equal sign -/
theorem deWord_last {w text a c : Runes} (hw : ∀ x ∈ w, CallChar x) (ha : 61 ∉ a) (h : DeWord (w ++ 61 :: text) a c) : False := by
  obtain ⟨d, e, hs, h1, h2, h3, x, hx, h4⟩ := h
  rcases List.append_eq_append_iff.1 hs with ⟨v, ev, ev2⟩ | ⟨v, ev, ev2⟩
  · cases v with
    | nil => simp at ev2; omega
    | cons v0 vs =>
      simp only [List.cons_append, List.cons.injEq] at ev2
      exact ha (by rw [ev, ← ev2.1]; simp)
  · cases v with
    | nil => simp at ev2; omega
    | cons v0 vs =>
      simp only [List.cons_append, List.cons.injEq] at ev2
      obtain ⟨rfl, ev2⟩ := ev2
      cases vs with
      | nil => simp at ev2; omega
      | cons v1 vs =>
        simp only [List.cons_append, List.cons.injEq] at ev2
        obtain ⟨rfl, ev2⟩ := ev2
        rw [ev2] at hx
        cases vs with
        | nil => simp at hx; subst hx; exact absurd h4 (by decide)
        | cons v2 vs =>
          simp at hx; subst hx
          exact callChar_not_blank (hw v2 (by rw [ev]; simp)) h4

/-- a word DE before the equal sign is one of the words -/
theorem Spec.Laid.deWord {ws : List Runes} {p : Runes} (h : Laid ws p) : ∀ {text a c : Runes}, 61 ∉ a →
    DeWord (p ++ 61 :: text) a c → ∃ ws1 w ws2, ws = ws1 ++ w :: ws2 ∧ IsDe w ∧
      ∃ q, p = a ++ q ∧ Laid ws1 a ∧ Laid (w :: ws2) q := by
  induction h with
  | nil =>
    intro text a c ha hd
    exact (deWord_last (w := []) (by simp) ha hd).elim
  | @cons w g s ws h0 hw hg hn h1 ih =>
    intro text a c ha hd
    by_cases hg0 : g = []
    · subst hg0
      have hws : ws = [] := by
        cases ws with
        | nil => rfl
        | cons => exact absurd rfl (hn (by simp))
      subst hws
      cases h1
      exact (deWord_last (w := w) hw ha (by simpa using hd)).elim
    · have hd' : DeWord (w ++ g ++ (s ++ 61 :: text)) a c := by simpa using hd
      rcases deWord_skip (fun x hx => callChar_not_blank (hw x hx)) (fun x hx => space_blank (hg x hx)) hg0 hd' with ⟨h2, rfl⟩ | ⟨a2, rfl, h2⟩
      · exact ⟨[], w, ws, rfl, h2, _, rfl, .nil, .cons h0 hw hg hn h1⟩
      · obtain ⟨ws1, w', ws2, rfl, hw', q, rfl, h3, h4⟩ := ih (fun hm => ha (by simp [hm])) h2
        exact ⟨w :: ws1, w', ws2, rfl, hw', q, by simp, .cons h0 hw hg (fun _ => hg0) h3, h4⟩

/-- how the words are laid out is determined by the text -/
theorem Spec.Laid.unique {ws : List Runes} : ∀ {p p' q q' : Runes}, Laid ws p → Laid ws p' → (∀ c ∈ q.head?, c ≠ 32) → (∀ c ∈ q'.head?, c ≠ 32) →
    p ++ q = p' ++ q' → p = p' := by
  induction ws with
  | nil =>
    intro p p' q q' h h' _ _ _
    cases h; cases h'; rfl
  | cons w ws ih =>
    intro p p' q q' h h' hq hq' e
    cases h with
    | @cons _ g s _ h0 hw hg hn h1 =>
      cases h' with
      | @cons _ g' s' _ _ _ hg' hn' h1' =>
        have e1 : g ++ (s ++ q) = g' ++ (s' ++ q') := List.append_cancel_left (as := w) (by simpa using e)
        have stop : ∀ (s q : Runes), Laid ws s → (∀ c ∈ q.head?, c ≠ 32) → ∀ c ∈ (s ++ q).head?, (c == 32) = false := by
          intro s q hs hq c hc
          cases ws with
          | nil => cases hs; simpa using hq c (by simpa using hc)
          | cons v vs =>
            obtain ⟨d, ds, rfl, hd⟩ := hs.head
            simp at hc
            subst hc
            have := callChar_not_blank hd
            simp only [beq_eq_false_iff_ne]
            intro e; subst e; exact this (by decide)
        obtain ⟨rfl, e2⟩ := span_unique (p := fun c => c == 32) (by simpa using hg) (stop s q h1 hq)
          (by simpa using hg') (stop s' q' h1' hq') e1
        rw [ih h1 h1' hq hq' e2]

/-- the recipients -/
theorem vetted_laid {U : Unicode} (hU : U.Lawful) {ws : List Runes} {p : Runes} (h : Laid ws p) :
    vettedKeepers U [p] = ws.map (fun n => n.map U.toUpper) := by
  have e : ∀ x, vettedKeepers U [x] = vetFields (fun s => toUpperStr U (trimSpace U s)) (fieldsLoop isSep x []) := by
    intro x; simp [vettedKeepers, fieldsFunc]
  have lead : ∀ (g x : Runes), (∀ c ∈ g, c = 32) → fieldsLoop isSep (g ++ x) [] = fieldsLoop isSep x [] := by
    intro g
    induction g with
    | nil => intro x _; rfl
    | cons c cs ih =>
      intro x hg
      have : c = 32 := hg c (by simp)
      subst this
      simp only [List.cons_append, fieldsLoop]
      rw [if_pos (by decide), if_pos trivial]
      exact ih x (fun c hc => hg c (by simp [hc]))
  induction h with
  | nil => rfl
  | @cons w g s ws h0 hw hg hn h1 ih =>
    have hsep : ∀ c ∈ w, isSep c = false := by
      intro c hcc
      have := hw c hcc
      simp only [CallChar] at this
      simp [isSep]; omega
    have ht : trimSpace U w = w := trimSpace_letters (fun c hcc => (call_up hU ((reCall_iff c).2 (.inl (hw c hcc)))).1)
    have hwpos : (toUpperStr U w).length > 0 := by simpa [toUpperStr] using List.length_pos_iff.2 h0
    cases g with
    | nil =>
      have hws : ws = [] := by
        cases ws with
        | nil => rfl
        | cons => exact absurd rfl (hn (by simp))
      subst hws
      cases h1
      rw [e]
      simp only [List.append_nil]
      rw [fieldsLoop_clean isSep w [] hsep]
      simp only [List.reverse_nil, List.nil_append, h0, if_false, vetFields, ht, List.map_cons, List.map_nil]
      rw [if_pos hwpos]
      rfl
    | cons x g =>
      have hx : x = 32 := hg x (by simp)
      subst hx
      have h2 : w ++ 32 :: g ++ s = w ++ 32 :: (g ++ s) := by simp
      rw [e, h2, fieldsLoop_append isSep 32 (by decide), fieldsLoop_clean isSep w [] hsep, vetFields_append,
        lead g s (fun c hc => hg c (by simp [hc])), ← e, ih]
      simp only [List.reverse_nil, List.nil_append, h0, if_false, vetFields, ht, List.map_cons]
      rw [if_pos hwpos]
      rfl

theorem vetted_lead {U : Unicode} {lead x : Runes} (hl : ∀ c ∈ lead, c = 32) : vettedKeepers U [lead ++ x] = vettedKeepers U [x] := by
  simp only [vettedKeepers, List.flatMap_cons, List.flatMap_nil, List.append_nil, fieldsFunc]
  congr 1
  induction lead with
  | nil => rfl
  | cons c cs ih =>
    have : c = 32 := hl c (by simp)
    subst this
    simp only [List.cons_append, fieldsLoop]
    rw [if_pos (by decide), if_pos trivial]
    exact ih (fun c hc => hl c (by simp [hc]))

end K431
