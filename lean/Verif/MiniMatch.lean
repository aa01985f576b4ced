import Verif.FormMatch

/-! # Helper lemmas: matching the shortest form of a radiogram -/

namespace K431
open Spec

/-- the words DE of a heading and of the text after it -/
theorem Spec.Laid.deWord_open {ws : List Runes} {p : Runes} (h : Laid ws p) : ∀ {text a c : Runes}, (∀ x ∈ p.getLast?, x = 32) →
    DeWord (p ++ text) a c → (∃ ws1 w ws2, ws = ws1 ++ w :: ws2 ∧ IsDe w ∧ ∃ q, p = a ++ q ∧ Laid ws1 a ∧ Laid (w :: ws2) q) ∨
      ∃ a2, a = p ++ a2 ∧ DeWord text a2 c := by
  induction h with
  | nil => intro text a c _ hd; exact .inr ⟨a, rfl, hd⟩
  | @cons w g s ws h0 hw hg hn h1 ih =>
    intro text a c hlast hd
    have hwb : ∀ x ∈ w, ¬ Blank x := by
      intro x hx hb
      have := call_not_space ((reCall_iff x).2 (.inl (hw x hx)))
      rw [(reSpace_iff x).2 hb] at this
      cases this
    have hg0 : g ≠ [] := by
      by_cases hws : ws = []
      · subst hws
        cases h1
        rintro rfl
        rcases List.eq_nil_or_concat w with rfl | ⟨w', x, rfl⟩
        · exact h0 rfl
        · have e : x = 32 := hlast x (by simp)
          exact hwb x (by simp) (space_blank e)
      · exact hn hws
    have hd' : DeWord (w ++ g ++ (s ++ text)) a c := by simpa using hd
    rcases deWord_skip hwb (fun x hx => space_blank (hg x hx)) hg0 hd' with ⟨h2, rfl⟩ | ⟨a2, rfl, h2⟩
    · exact .inl ⟨[], w, ws, rfl, h2, _, rfl, .nil, .cons h0 hw hg hn h1⟩
    · have hl : ∀ x ∈ s.getLast?, x = 32 := by
        intro x hx
        refine hlast x ?_
        rw [List.getLast?_append, Option.mem_def.1 hx]
        rfl
      rcases ih hl h2 with ⟨ws1, v, ws2, rfl, h3, q, rfl, h4, h5⟩ | ⟨a3, rfl, h3⟩
      · refine .inl ⟨w :: ws1, v, ws2, rfl, h3, q, by simp, .cons h0 hw hg ?_ h4, h5⟩
        intro _; exact hg0
      · exact .inr ⟨a3, by simp, h3⟩

/-! ## What looks like instruction and count -/

theorem counted_tail {c : Rune} {x : Runes} (h : LooksCounted (c :: x)) (hc : c ≠ 61) : LooksCounted x := by
  obtain ⟨l, g, d, g2, r, e, hl, hd, h1, h2, h3⟩ := h
  cases l with
  | cons y ys =>
    simp only [List.cons_append, List.cons.injEq] at e
    exact ⟨ys, g, d, g2, r, e.2, by simp at hl; omega, hd, fun c hc => h1 c (by simp [hc]), h2, h3⟩
  | nil =>
    cases g with
    | cons y ys =>
      simp only [List.nil_append, List.cons_append, List.cons.injEq] at e
      exact ⟨[], ys, d, g2, r, by simpa using e.2, by simp, hd, by simp, h2, fun c hc => h3 c (by simp at hc ⊢; exact .inr hc)⟩
    | nil =>
      cases d with
      | cons y ys =>
        simp only [List.nil_append, List.cons_append, List.cons.injEq] at e
        exact ⟨[], [], ys, g2, r, by simpa using e.2, by simp, by simp at hd; omega, by simp, fun c hc => h2 c (by simp [hc]), h3⟩
      | nil =>
        cases g2 with
        | cons y ys =>
          simp only [List.nil_append, List.cons_append, List.cons.injEq] at e
          exact ⟨[], [], [], ys, r, by simpa using e.2, by simp, by simp, by simp, by simp, fun c hc => h3 c (by simp at hc ⊢; exact .inr hc)⟩
        | nil =>
          simp at e
          exact absurd e.1 hc

theorem counted_drop {v x : Runes} (h : LooksCounted (v ++ x)) (hv : 61 ∉ v) : LooksCounted x := by
  induction v with
  | nil => exact h
  | cons c v ih => exact ih (counted_tail h (fun e => hv (by simp [e]))) (fun hm => hv (by simp [hm]))

theorem counted_blanks {b g x y : Runes} (hx : LooksCounted x) (hb : ∀ c ∈ b, reSpace c = true) (hg : ∀ c ∈ g, reSpace c = true)
    (hy : ∀ c ∈ y.head?, reSpace c = false) (e : b ++ x = g ++ y) : LooksCounted y := by
  rcases List.append_eq_append_iff.1 e with ⟨v, e1, e2⟩ | ⟨v, e1, e2⟩
  · rw [e2] at hx
    refine counted_drop hx (fun hm => ?_)
    have := hg 61 (by rw [e1]; simp [hm])
    exact absurd this (by decide)
  · cases v with
    | nil => rw [e2]; exact hx
    | cons c v =>
      have h1 := hy c (by rw [e2]; simp)
      rw [hb c (by rw [e1]; simp)] at h1
      cases h1

theorem can_upTo {p : Rune → Bool} : ∀ (n : Nat) {b b' : Bool} {s s' : Runes}, (Re.upTo (.cls p) n).Can b s b' s' →
    ∃ w, s = w ++ s' ∧ w.length ≤ n ∧ ∀ c ∈ w, p c = true := by
  intro n
  induction n with
  | zero => rintro b b' s s' ⟨_, rfl⟩; exact ⟨[], rfl, by simp, by simp⟩
  | succ n ih =>
    rintro b b' s s' (⟨b1, s1, ⟨_, c, rfl, hc⟩, h⟩ | ⟨_, rfl⟩)
    · obtain ⟨w, rfl, hw, hp⟩ := ih h
      refine ⟨c :: w, rfl, by simp; omega, ?_⟩
      intro x hx
      rcases List.mem_cons.1 hx with rfl | hx
      · exact hc
      · exact hp x hx
    · exact ⟨[], rfl, by simp, by simp⟩

theorem can_times {p : Rune → Bool} : ∀ (n : Nat) {b b' : Bool} {s s' : Runes}, (Re.times (.cls p) n).Can b s b' s' →
    ∃ w, s = w ++ s' ∧ w.length = n ∧ ∀ c ∈ w, p c = true := by
  intro n
  induction n with
  | zero => rintro b b' s s' ⟨_, rfl⟩; exact ⟨[], rfl, rfl, by simp⟩
  | succ n ih =>
    intro b b' s s' h
    have key : ∃ b1 s1, (Re.cls p).Can b s b1 s1 ∧ (Re.times (.cls p) n).Can b1 s1 b' s' := by
      cases n with
      | zero => exact ⟨b', s', h, rfl, rfl⟩
      | succ k => exact h
    obtain ⟨b1, s1, ⟨_, c, rfl, hc⟩, h'⟩ := key
    obtain ⟨w, rfl, hw, hp⟩ := ih h'
    refine ⟨c :: w, rfl, by simp [hw], ?_⟩
    intro x hx
    rcases List.mem_cons.1 hx with rfl | hx
    · exact hc
    · exact hp x hx

/-- a date-time group is taken or it is not -/
theorem can_dtg {b b' : Bool} {s s' : Runes} (h : reDtg.Can b s b' s') :
    ∃ w, s = w ++ s' ∧ (∀ c ∈ w, reCall c = true) ∧ (w = [] ∨ ∃ six rest, w = six ++ rest ∧ six.length = 6 ∧ ∀ c ∈ six, 48 ≤ c ∧ c ≤ 57) := by
  obtain ⟨w, rfl, _⟩ := h.suffix
  have honly : ∀ c ∈ w, reCall c = true := by
    rcases dtg_skip.2 with ho | ho
    · exact ho _ _ _ _ h
    · exact absurd h (by
        intro h
        have h1 := ho true (lit "012345") false [] (by
          have hc := (Re.can_iff reDtg ⟨true, lit "012345", []⟩ false []).1 (by decide)
          simpa using hc) 48 (by decide)
        exact absurd h1 (by decide))
  refine ⟨w, rfl, honly, ?_⟩
  rcases h with ⟨b1, s1, h1, h2⟩ | ⟨_, e⟩
  · obtain ⟨six, e, hl, hp⟩ := can_times 6 h1
    right
    obtain ⟨v, e2, _⟩ := h2.suffix
    refine ⟨six, v, ?_, hl, fun c hc => digit_iff.1 (hp c hc)⟩
    rw [e2] at e
    have : w ++ s' = (six ++ v) ++ s' := by rw [e]; simp
    exact List.append_cancel_right this
  · left
    have : w ++ s' = [] ++ s' := by rw [← e]; simp
    exact List.append_cancel_right this

/-- whatever is matched up to an equal sign looks like date-time group, instruction and count -/
theorem tail_counted {tail : List Re} (ht : tail ∈ [tailFull, tailSemi, tailShort]) {b' : Bool} {s s' : Runes} (h : (Re.seqs tail).Can false s b' s') :
    ∃ g0 w g1 x, s = g0 ++ (w ++ (g1 ++ x)) ∧ (∀ c ∈ g0, reSpace c = true) ∧ (∀ c ∈ w, reCall c = true) ∧
      (w = [] ∨ ∃ six rest, w = six ++ rest ∧ six.length = 6 ∧ ∀ c ∈ six, 48 ≤ c ∧ c ≤ 57) ∧ (∀ c ∈ g1, reSpace c = true) ∧ LooksCounted x := by
  have hstart : ∃ l, tail = reBlanks :: reDtg :: reBlanks :: l ∧ l ≠ [] ∧ ∀ b b' x x', (Re.seqs l).Can b x b' x' → LooksCounted x := by
    have heq : ∀ (m : List Re), m ≠ [] → ∀ b b' x x', (Re.seqs (.cls reEq :: m)).Can b x b' x' → LooksCounted x := by
      intro m hm b b' x x' h
      rw [Re.can_seqs_cons hm] at h
      obtain ⟨_, s1, ⟨_, c, rfl, hc⟩, _⟩ := h
      have : c = 61 := by simpa [reEq] using hc
      subst this
      exact ⟨[], [], [], [], s1, rfl, by simp, by simp, by simp, by simp, by simp⟩
    simp only [List.mem_cons, List.not_mem_nil, or_false] at ht
    rcases ht with rfl | rfl | rfl
    · exact ⟨_, rfl, by simp, heq _ (by simp)⟩
    · exact ⟨_, rfl, by simp, heq _ (by simp)⟩
    · refine ⟨_, rfl, by simp, ?_⟩
      intro b b' x x' h
      obtain ⟨_, _, h1, _, _, h2, _, _, h3, _, _, h4, _, s5, ⟨_, c, rfl, hc⟩, _⟩ := h
      obtain ⟨l, rfl, hl, hlp⟩ := can_upTo 4 h1
      obtain ⟨g, rfl, hg⟩ := can_star h2
      obtain ⟨d, rfl, hd, hdp⟩ := can_upTo 4 h3
      obtain ⟨g2, rfl, hg2⟩ := can_star h4
      have : c = 61 := by simpa [reEq] using hc
      subst this
      refine ⟨l, g, d, g2, s5, by simp, hl, hd, ?_, fun c hc => digit_iff.1 (hdp c hc), ?_⟩
      · intro c hc
        have := hlp c hc
        simp [reLetter, FoldsToLetter, longS, kelvin] at this ⊢
        omega
      · intro c hc
        rcases List.mem_append.1 hc with hc | hc
        · exact (reSpace_iff c).1 (hg c hc)
        · exact (reSpace_iff c).1 (hg2 c hc)
  obtain ⟨l, rfl, hl, hlc⟩ := hstart
  rw [Re.can_seqs_cons (by simp)] at h
  obtain ⟨_, _, h1, h⟩ := h
  rw [Re.can_seqs_cons (by simp)] at h
  obtain ⟨_, _, h2, h⟩ := h
  rw [Re.can_seqs_cons hl] at h
  obtain ⟨_, x, h3, h⟩ := h
  obtain ⟨g0, rfl, hg0⟩ := can_star h1
  obtain ⟨w, rfl, hw, hw2⟩ := can_dtg h2
  obtain ⟨g1, rfl, hg1⟩ := can_star h3
  exact ⟨g0, w, g1, x, rfl, hg0, hw, hw2, hg1, hlc _ _ _ _ h⟩

/-- so the text looks counted -/
theorem mini_counted {tail : List Re} (ht : tail ∈ [tailFull, tailSemi, tailShort]) {b' : Bool} {s' : Runes} {dtg : Option Runes} {g q text : Runes}
    (hg : ∀ c ∈ g, c = 32) (hq : Laid dtg.toList q) (hend : ∀ x ∈ q.getLast?, x = 32) (hstart : ∀ c ∈ text.head?, ¬ Blank c)
    (hno : dtg = none → ¬ ∃ six rest, text = six ++ rest ∧ six.length = 6 ∧ ∀ c ∈ six, 48 ≤ c ∧ c ≤ 57)
    (h : (Re.seqs tail).Can false (g ++ (q ++ text)) b' s') : LooksCounted text := by
  obtain ⟨g0, w, g1, x, e, hg0, hw, hw2, hg1, hx⟩ := tail_counted ht h
  have hgs : ∀ c ∈ g, reSpace c = true := fun c hc => (reSpace_iff c).2 (space_blank (hg c hc))
  have hts : ∀ c ∈ text.head?, reSpace c = false := by
    intro c hc
    rcases hs : reSpace c with _ | _
    · rfl
    · exact absurd ((reSpace_iff c).1 hs) (hstart c hc)
  have hcallhead : ∀ (u v : Runes), u ≠ [] → (∀ c ∈ u, reCall c = true) → ∀ c ∈ (u ++ v).head?, reSpace c = false := by
    intro u v hu huc c hc
    cases u with
    | nil => exact absurd rfl hu
    | cons q qs => simp at hc; subst hc; exact call_not_space (huc q (by simp))
  cases dtg with
  | none =>
    have hq' : Laid [] q := hq
    cases hq'
    rw [List.nil_append] at e
    by_cases hw0 : w = []
    · subst hw0
      refine counted_blanks (b := g0 ++ g1) hx ?_ hgs hts (by rw [e]; simp)
      intro c hc
      rcases List.mem_append.1 hc with hc | hc
      · exact hg0 c hc
      · exact hg1 c hc
    · exfalso
      obtain ⟨_, e2⟩ := span_unique hg0 (hcallhead w _ hw0 hw) hgs hts e.symm
      rcases hw2 with hw2 | ⟨six, rest, rfl, h6, hd⟩
      · exact hw0 hw2
      · exact hno rfl ⟨six, rest ++ (g1 ++ x), by rw [← e2]; simp, h6, hd⟩
  | some v =>
    have hq' : Laid [v] q := hq
    cases hq' with
    | @cons _ g3 s _ hv0 hvc hg3 hn hnil =>
    cases hnil
    rw [List.append_nil] at e hend
    have hvcall : ∀ c ∈ v, reCall c = true := fun c hc => (reCall_iff c).2 (.inl (hvc c hc))
    have hv61 : 61 ∉ v := fun hm => absurd (hvc 61 hm) (by decide)
    have hg361 : 61 ∉ g3 := fun hm => absurd (hg3 61 hm) (by decide)
    have hg3s : ∀ c ∈ g3, reSpace c = true := fun c hc => (reSpace_iff c).2 (space_blank (hg3 c hc))
    have hg30 : g3 ≠ [] := by
      rintro rfl
      rcases List.eq_nil_or_concat v with rfl | ⟨v', y, rfl⟩
      · exact hv0 rfl
      · have : y = 32 := hend y (by simp)
        subst this
        exact absurd (hvc 32 (by simp)) (by decide)
    rw [List.append_assoc] at e
    by_cases hw0 : w = []
    · subst hw0
      have := counted_blanks (b := g0 ++ g1) hx (by
        intro c hc
        rcases List.mem_append.1 hc with hc | hc
        · exact hg0 c hc
        · exact hg1 c hc) hgs (hcallhead v _ hv0 hvcall) (by rw [e]; simp)
      exact counted_drop (counted_drop this hv61) hg361
    · obtain ⟨_, e2⟩ := span_unique hg0 (hcallhead w _ hw0 hw) hgs (hcallhead v _ hv0 hvcall) e.symm
      rcases List.append_eq_append_iff.1 e2 with ⟨u, e3, e4⟩ | ⟨u, e3, e4⟩
      · cases u with
        | nil =>
          exact counted_blanks hx hg1 hg3s hts (by simpa using e4)
        | cons y ys =>
          have hy : reSpace y = false := call_not_space (hvcall y (by rw [e3]; simp))
          have := counted_blanks (b := g1) (g := []) (y := y :: ys ++ (g3 ++ text)) hx hg1 (by simp)
            (by intro c hc; simp at hc; subst hc; exact hy) (by rw [e4]; rfl)
          exact counted_drop (counted_drop this (fun hm => hv61 (by rw [e3]; simp at hm ⊢; exact .inr hm))) hg361
      · cases u with
        | nil => exact counted_blanks hx hg1 hg3s hts (by simpa using e4.symm)
        | cons y ys =>
          exfalso
          have hy : reSpace y = false := call_not_space (hw y (by rw [e3]; simp))
          cases g3 with
          | nil => exact hg30 rfl
          | cons z zs =>
            simp only [List.cons_append, List.cons.injEq] at e4
            have := hg3s z (by simp)
            rw [e4.1, hy] at this
            cases this

/-- the shortest form takes everything after the date-time group for text -/
theorem mini_text_first {dtg : Option Runes} {g q text : Runes} {caps : List (Nat × Runes)} (ht : 10 ∉ text)
    (hd : ∀ w ∈ dtg, DocumentedDtg w) (hg : ∀ c ∈ g, c = 32) (hq : Laid dtg.toList q) (hend : ∀ x ∈ q.getLast?, x = 32)
    (hstart : ∀ c ∈ text.head?, ¬ Blank c ∧ c ≠ 61)
    (hno : dtg = none → ¬ ∃ six rest, text = six ++ rest ∧ six.length = 6 ∧ ∀ c ∈ six, 48 ≤ c ∧ c ≤ 57) :
    ((Re.seqs tailMini).run ⟨false, g ++ (q ++ text), caps⟩).head? = some ⟨false, [], (4, text) :: (dtgCaps dtg ++ caps)⟩ := by
  have hts : ∀ c ∈ text.head?, reSpace c = false := by
    intro c hc
    rcases hs : reSpace c with _ | _
    · rfl
    · exact absurd ((reSpace_iff c).1 hs) (hstart c hc).1
  have hafter : ∀ caps, ((Re.seqs [.star reEq, reBlanks, reText]).run ⟨false, text, caps⟩).head? = some ⟨false, [], (4, text) :: caps⟩ := by
    intro caps
    refine first_seqs (by simp) (first_star (w := []) (by simp) (by
      intro c hc
      have := (hstart c hc).2
      simp [reEq, this])) ?_
    refine first_seqs (by simp) (blank_first (g := []) (by simp) hts) ?_
    have h2 : ((Re.star reAny).run ⟨false, text ++ [], caps⟩).head? = some ⟨false, [], caps⟩ := by
      refine first_star ?_ (by simp)
      intro c hc
      simp [reAny]
      intro e2; subst e2; exact ht hc
    have := first_cap (i := 4) h2
    simp only [List.append_nil, List.length_nil, Nat.sub_zero, List.take_length] at this
    exact this
  cases dtg with
  | none =>
    have hq' : Laid [] q := hq
    cases hq'
    refine first_seqs (by simp) (blank_first hg hts) ?_
    have e : text = text.takeWhile reDigit ++ text.dropWhile reDigit := by simp
    have hlen : (text.takeWhile reDigit).length < 6 := by
      rcases Nat.lt_or_ge (text.takeWhile reDigit).length 6 with h | h
      · exact h
      · exfalso
        refine hno rfl ⟨(text.takeWhile reDigit).take 6, (text.takeWhile reDigit).drop 6 ++ text.dropWhile reDigit, ?_, by simp; omega, ?_⟩
        · rw [← List.append_assoc, List.take_append_drop]; exact e
        · intro c hc
          exact digit_iff.1 (List.all_eq_true.1 List.all_takeWhile c (List.mem_of_mem_take hc))
    have hdtg : (reDtg.run ⟨false, text, caps⟩).head? = some ⟨false, text, caps⟩ := by
      have := dtg_absent (caps := caps) hlen (dropWhile_stops (p := reDigit) text)
      rwa [← e] at this
    exact first_seqs (by simp) hdtg (first_seqs (by simp) (blank_first (g := []) (by simp) hts) (hafter caps))
  | some v =>
    have hq' : Laid [v] q := hq
    obtain ⟨day, zone, month, year, hw, hz⟩ := hd v rfl
    cases hq' with
    | @cons _ g3 s _ hv0 hvc hg3 hn hnil =>
    cases hnil
    rw [List.append_nil] at hend ⊢
    rw [List.append_assoc]
    have hg30 : g3 ≠ [] := by
      rintro rfl
      rcases List.eq_nil_or_concat v with rfl | ⟨v', y, rfl⟩
      · exact hv0 rfl
      · have : y = 32 := hend y (by simp)
        subst this
        exact absurd (hvc 32 (by simp)) (by decide)
    refine first_seqs (by simp) (blank_first hg (by
      intro c hc
      cases v with
      | nil => exact absurd rfl hv0
      | cons y ys => simp at hc; subst hc; exact call_not_space ((reCall_iff y).2 (.inl (hvc y (by simp)))))) ?_
    refine first_seqs (by simp) (first_dtg hw hz (by
      intro c hc
      cases g3 with
      | nil => exact absurd rfl hg30
      | cons y ys =>
        simp at hc
        subst hc
        have := hg3 y (by simp)
        subst this
        decide)) ?_
    exact first_seqs (by simp) (blank_first hg3 hts) (hafter _)

/-- The match of a radiogram in the shortest form. -/
theorem mini_match {U : Unicode} (hU : U.Lawful) {s : Runes} {names : List Runes} {sender text : Runes} {dtg : Option Runes}
    (h : MiniForm s names sender dtg text) (hde : ¬ ∃ a c, DeWord text a c) (hcount : ¬ LooksCounted text) (ht : 10 ∉ text) :
    ∃ caps, firstMatch s [regexpFull, regexpSemi, regexpShort, regexpMini] = some caps ∧
      vettedKeepers U [capture caps 1] = names.map (fun n => n.map U.toUpper) ∧ capture caps 2 = sender ∧
      capture caps 3 = dtg.getD [] ∧ capture caps 4 = text := by
  obtain ⟨pre0, hs0', hh⟩ := h.form
  obtain ⟨hnn, hnr⟩ := hh.rest
  obtain ⟨lead, words, de, hpre, hlead, hdeW, hlaid⟩ := hh.laid
  have hs : s = lead ++ words ++ text := by rw [hs0', ← hpre]; simp
  have hwlast : ∀ x ∈ words.getLast?, x = 32 := by
    intro x hx
    have := congrArg List.getLast? hpre.symm
    rw [List.getLast?_append, Option.mem_def.1 hx] at this
    simpa using this
  obtain ⟨p, q, rfl, hp, hq, hlast⟩ := Laid.split (by simp) hlaid
  have hq0 := hq
  cases hq with
  | @cons _ g1 q1 _ _ _ hg1 hn1 hq1 =>
  have hg10 : g1 ≠ [] := hn1 (by simp)
  cases hq1 with
  | @cons _ g2 q2 _ hs0 hsc hg2 hn2 hq2 =>
  obtain ⟨d, e, rfl, hd, he⟩ := hdeW
  have hs' : s = (lead ++ p) ++ d :: e :: (g1 ++ sender ++ (g2 ++ (q2 ++ text))) := by rw [hs]; simp
  have hlist : ∀ x ∈ lead ++ p, ListChar x := by
    intro x hx
    rcases List.mem_append.1 hx with hx | hx
    · exact .inr (.inr (space_blank (hlead x hx)))
    · rcases hp.chars x hx with hx | hx
      · exact .inl hx
      · exact .inr (.inr (space_blank hx))
  have hlastb : ∀ x ∈ (lead ++ p).getLast?, Blank x := by
    intro x hx
    rw [List.getLast?_append, Option.mem_def, Option.or_eq_some_iff] at hx
    rcases hx with hx | ⟨_, hx⟩
    · exact space_blank (hlast x hx)
    · exact space_blank (hlead x (List.mem_of_mem_getLast? hx))
  have hg1b : ∀ x ∈ g1, Blank x := fun x hx => space_blank (hg1 x hx)
  have hq2last : ∀ x ∈ q2.getLast?, x = 32 := by
    intro x hx
    refine hwlast x ?_
    rw [← List.append_assoc, List.getLast?_append, List.getLast?_append, Option.mem_def.1 hx]
    rfl
  have hg20 : g2 ≠ [] := by
    by_cases hdn : dtg.toList = []
    · rw [hdn] at hq2
      cases hq2
      rintro rfl
      rcases List.eq_nil_or_concat sender with rfl | ⟨v', y, rfl⟩
      · exact hs0 rfl
      · have : y = 32 := hwlast y (by
          have e3 : p ++ ([d, e] ++ g1 ++ (v'.concat y ++ [] ++ [])) = (p ++ ([d, e] ++ g1 ++ v')) ++ [y] := by simp
          rw [e3, List.getLast?_concat]
          rfl)
        subst this
        exact absurd (hsc 32 (by simp)) (by decide)
    · exact hn2 hdn
  have hstop : ∀ c ∈ (g2 ++ (q2 ++ text)).head?, reCall c = false := by
    intro c hc
    cases g2 with
    | nil => exact absurd rfl hg20
    | cons y ys =>
      simp at hc
      subst hc
      have := hg2 y (by simp)
      subst this
      decide
  have hdw : DeWord s (lead ++ p) (g1 ++ sender ++ (g2 ++ (q2 ++ text))) := by
    refine ⟨d, e, hs', hd, he, hlastb, ?_⟩
    cases g1 with
    | nil => exact absurd rfl hg10
    | cons x xs => exact ⟨x, by simp, hg1b x (by simp)⟩
  have huniq : ∀ a' c', DeWord s a' c' → a' = lead ++ p := by
    intro a' c' hd'
    have hskip : ∃ a2, a' = lead ++ a2 ∧ DeWord ((p ++ ([d, e] ++ g1 ++ (sender ++ g2 ++ q2))) ++ text) a2 c' := by
      by_cases hl0 : lead = []
      · subst hl0
        exact ⟨a', rfl, by rw [hs] at hd'; simpa using hd'⟩
      · have : DeWord ([] ++ lead ++ ((p ++ ([d, e] ++ g1 ++ (sender ++ g2 ++ q2))) ++ text)) a' c' := by
          rw [hs] at hd'; simpa using hd'
        rcases deWord_skip (by simp) (fun x hx => space_blank (hlead x hx)) hl0 this with ⟨⟨_, _, hx, _⟩, _⟩ | ⟨a2, h1, h2⟩
        · cases hx
        · exact ⟨a2, by simpa using h1, h2⟩
    obtain ⟨a2, rfl, hd2⟩ := hskip
    rcases hlaid.deWord_open hwlast hd2 with ⟨ws1, w, ws2, e1, hw, q', e2, h3, h4⟩ | ⟨a3, _, h3⟩
    · obtain ⟨rfl, _, _⟩ := de_place hnn hnr e1 hw
      congr 1
      refine (Laid.unique hp h3 ?_ ?_ e2).symm
      · intro c hc
        obtain ⟨x, xs, ex, hx⟩ := hq0.head
        rw [ex] at hc
        simp at hc
        subst hc
        intro e; subst e; exact absurd hx (by decide)
      · intro c hc
        obtain ⟨x, xs, ex, hx⟩ := h4.head
        rw [ex] at hc
        simp at hc
        subst hc
        intro e; subst e; exact absurd hx (by decide)
    · exact absurd ⟨a3, c', h3⟩ hde
  have hscall : ∀ x ∈ sender, reCall x = true := fun x hx => (reCall_iff x).2 (.inl (hsc x hx))
  have hstopc : ∀ (x y : Runes), x ≠ [] → (∀ c ∈ x, reCall c = true) → ∀ c ∈ (x ++ y).head?, reSpace c = false := by
    intro x y hx hxc c hc
    cases x with
    | nil => exact absurd rfl hx
    | cons q qs => simp at hc; subst hc; exact call_not_space (hxc q (by simp))
  -- what an expression matches, wherever its match begins
  have hany : ∀ (tail : List Re), tail ≠ [] → (Re.seqs tail).Absorbs → ∀ (pre s' : Runes) (t : ReSt), s = pre ++ s' →
      ((Re.seqs (head5 tail)).run ⟨true && pre.isEmpty, s', []⟩).head? = some t →
      ∃ g ws, (∀ c ∈ ws, reSpace c = true) ∧ pre ++ (g ++ ws) = lead ++ p ∧
        ((Re.seqs tail).run ⟨false, g2 ++ (q2 ++ text), [(2, sender), (1, g)]⟩).head? = some t := by
    intro tail h0 hab pre s' t hpre hrun
    obtain ⟨g, ws, d', e', ws2, call, rest, hm, hstop', hfirst⟩ := head5_first h0 hab hrun
    have hdw' := hm.deWord (pre := pre) (by simp)
    rw [← hpre] at hdw'
    have hga : pre ++ (g ++ ws) = lead ++ p := by
      have := huniq _ _ hdw'
      rwa [List.append_assoc] at this
    have hcc : ws2 ++ (call ++ rest) = g1 ++ (sender ++ (g2 ++ (q2 ++ text))) := by
      have e1 := hpre
      rw [hm.text, hs'] at e1
      have e2 : (lead ++ p) ++ d :: e :: (g1 ++ sender ++ (g2 ++ (q2 ++ text))) = (pre ++ (g ++ ws)) ++ d' :: e' :: (ws2 ++ call ++ rest) := by
        rw [e1]; simp
      rw [hga] at e2
      have := List.append_cancel_left e2
      simp only [List.cons.injEq, List.append_assoc] at this
      exact this.2.2.symm
    obtain ⟨_, h4⟩ := span_unique hm.blanks2 (hstopc call rest hm.some hm.calls)
      (fun c hc => (reSpace_iff c).2 (hg1b c hc)) (hstopc sender _ hs0 hscall) hcc
    obtain ⟨rfl, rfl⟩ := span_unique hm.calls hstop' hscall hstop h4
    exact ⟨g, ws, hm.blanks, hga, hfirst⟩
  have hnone : ∀ tail ∈ [tailFull, tailSemi, tailShort], (Re.seqs (head5 tail)).find s = none := by
    intro tail htl
    have hok := theTails_ok tail (by
      simp only [List.mem_cons, List.not_mem_nil, or_false] at htl
      rcases htl with rfl | rfl | rfl <;> simp [theTails])
    rcases hf : (Re.seqs (head5 tail)).find s with _ | ⟨n, t⟩
    · rfl
    · exfalso
      obtain ⟨pre, s', hpre, _, hrun, _⟩ := Re.findFrom_some hf
      obtain ⟨g, ws, _, _, hfirst⟩ := hany tail hok.1 hok.2.1 pre s' t hpre hrun
      have hc := (Re.can_iff _ _ _ _).1 ⟨t, List.mem_of_mem_head? hfirst, rfl, rfl⟩
      exact hcount (mini_counted htl hg2 hq2 hq2last (fun c hc => (h.start c hc).1) h.notDtg hc)
  have hmini := fun caps => mini_text_first (caps := caps) ht hh.dtg hg2 hq2 hq2last h.start h.notDtg
  have hne : (Re.seqs (head5 tailMini)).run ⟨true, s, []⟩ ≠ [] := by
    rw [run_nonempty]
    obtain ⟨g, ws, d', e', hm, _⟩ := headMatch_of_deWord hdw (fun x hx => (reCalls_iff x).2 (.inl (hlist x hx))) rfl
      hg10 (fun x hx => (reSpace_iff x).2 (hg1b x hx)) hs0 hscall
    have hcan := (run_nonempty (r := Re.seqs tailMini) (s := ⟨false, g2 ++ (q2 ++ text), []⟩)).1
      (by intro e; have := hmini []; rw [e] at this; cases this)
    obtain ⟨b', s', hcan⟩ := hcan
    exact ⟨b', s', (head5_can (by simp [tailMini])).2 ⟨g, ws, d', e', g1, sender, _, hm, hcan⟩⟩
  obtain ⟨t, htt⟩ : ∃ t, ((Re.seqs (head5 tailMini)).run ⟨true, s, []⟩).head? = some t := by
    rcases hr : (Re.seqs (head5 tailMini)).run ⟨true, s, []⟩ with _ | ⟨t, ts⟩
    · exact absurd hr hne
    · exact ⟨t, rfl⟩
  refine ⟨t.caps, ?_, ?_⟩
  · have h1 : regexpFull.find s = none := hnone tailFull (by simp)
    have h2 : regexpSemi.find s = none := hnone tailSemi (by simp)
    have h3 : regexpShort.find s = none := hnone tailShort (by simp)
    have h4 : regexpMini.find s = some (0, t) := Re.find_here htt
    simp only [firstMatch, h1, h2, h3, h4]
  · obtain ⟨g, ws, hws, hga, hfirst⟩ := hany tailMini (by simp [tailMini]) mini_absorbs [] s t rfl (by simpa using htt)
    rw [hmini] at hfirst
    cases hfirst
    rw [List.nil_append] at hga
    refine ⟨?_, ?_, ?_, ?_⟩
    · have : capture ((4, text) :: (dtgCaps dtg ++ [(2, sender), (1, g)])) 1 = g := by
        cases dtg <;> rfl
      rw [this, ← vetted_blanks hU hws, hga, vetted_lead hlead, vetted_laid hU hp]
    · cases dtg <;> rfl
    · cases dtg <;> rfl
    · cases dtg <;> rfl

end K431
