import Verif.RegexLemmas
import Verif.SpecRadio
import Verif.FunLemmas

/-! # Helper lemmas: radiograms -/

namespace K431
open Spec

theorem reSpace_iff (c : Rune) : reSpace c = true ↔ Blank c := by
  simp [reSpace, Blank, or_assoc]

theorem reCall_iff (c : Rune) : reCall c = true ↔ CallChar c ∨ FoldsToLetter c := by
  simp [reCall, reLetter, reDigit, CallChar, FoldsToLetter, longS, kelvin]
  omega

theorem reCalls_iff (c : Rune) : reCalls c = true ↔ ListChar c ∨ FoldsToLetter c := by
  unfold reCalls
  rw [Bool.or_eq_true, Bool.or_eq_true, reCall_iff, reSpace_iff]
  simp only [ListChar, beq_iff_eq]
  constructor
  · rintro (((h | h) | h) | h)
    · exact .inl (.inl h)
    · exact .inr h
    · exact .inl (.inr (.inl h))
    · exact .inl (.inr (.inr h))
  · rintro ((h | h | h) | h)
    · exact .inl (.inl (.inl h))
    · exact .inl (.inr h)
    · exact .inr h
    · exact .inl (.inl (.inr h))

theorem call_not_space {c : Rune} (h : reCall c = true) : reSpace c = false := by
  rcases hs : reSpace c with _ | _
  · rfl
  · rw [reSpace_iff] at hs
    rw [reCall_iff] at h
    simp only [CallChar, FoldsToLetter, longS, kelvin, Blank] at h hs
    omega

/-- The five parts every expression begins with. -/
def head5 (tail : List Re) : List Re :=
  .cap 1 (.star reCalls) :: .alt (Re.plus reSpace) .bot :: reWord "DE" :: Re.plus reSpace :: .cap 2 (Re.plus reCall) :: tail

theorem can_plus {p : Rune → Bool} {b b' : Bool} {s s' : Runes} (h : (Re.plus p).Can b s b' s') :
    ∃ w, s = w ++ s' ∧ w ≠ [] ∧ (∀ c ∈ w, p c = true) ∧ b' = false := by
  obtain ⟨b1, s1, ⟨rfl, c, rfl, hc⟩, h2⟩ := h
  obtain ⟨w, rfl, h3, rfl⟩ := mem_starRun h2
  refine ⟨c :: w, rfl, by simp, ?_, by simp⟩
  intro x hx
  rcases List.mem_cons.1 hx with rfl | hx
  · exact hc
  · exact h3 x hx

theorem plus_can {p : Rune → Bool} {b : Bool} {w s' : Runes} (h0 : w ≠ []) (h : ∀ c ∈ w, p c = true) :
    (Re.plus p).Can b (w ++ s') false s' := by
  cases w with
  | nil => exact absurd rfl h0
  | cons c cs =>
    refine ⟨false, cs ++ s', ⟨rfl, c, rfl, h c (by simp)⟩, ?_⟩
    have := starRun_all (p := p) cs s' false (fun x hx => h x (by simp [hx]))
    simp only [Bool.false_and] at this
    exact this

theorem can_de {b b' : Bool} {s s' : Runes} : (reWord "DE").Can b s b' s' ↔
    b' = false ∧ ∃ d e, s = d :: e :: s' ∧ (d = 68 ∨ d = 100) ∧ (e = 69 ∨ e = 101) := by
  have hw : reWord "DE" = .seq (.cls (reLit 68)) (.cls (reLit 69)) := rfl
  rw [hw]
  simp only [Re.Can]
  have l1 : ∀ c, reLit 68 c = true ↔ (c = 68 ∨ c = 100) := by intro c; simp [reLit]
  have l2 : ∀ c, reLit 69 c = true ↔ (c = 69 ∨ c = 101) := by intro c; simp [reLit]
  constructor
  · rintro ⟨b1, s1, ⟨rfl, d, rfl, hd⟩, rfl, e, rfl, he⟩
    exact ⟨rfl, d, e, rfl, (l1 d).1 hd, (l2 e).1 he⟩
  · rintro ⟨rfl, d, e, rfl, hd, he⟩
    exact ⟨false, e :: s', ⟨rfl, d, rfl, (l1 d).2 hd⟩, rfl, e, rfl, (l2 e).2 he⟩

/-- What the beginning of the expression matches: `s = g1 ws DE ws2 call rest`. -/
structure HeadMatch (b : Bool) (s g1 ws : Runes) (d e : Rune) (ws2 call rest : Runes) : Prop where
  text : s = g1 ++ ws ++ d :: e :: (ws2 ++ call ++ rest)
  list : ∀ c ∈ g1, reCalls c = true
  blanks : ∀ c ∈ ws, reSpace c = true
  word : ws ≠ [] ∨ (b = true ∧ g1 = [])
  isD : d = 68 ∨ d = 100
  isE : e = 69 ∨ e = 101
  blanks2 : ∀ c ∈ ws2, reSpace c = true
  some2 : ws2 ≠ []
  calls : ∀ c ∈ call, reCall c = true
  some : call ≠ []

theorem head5_can {tail : List Re} (ht : tail ≠ []) {b b' : Bool} {s s' : Runes} :
    (Re.seqs (head5 tail)).Can b s b' s' ↔ ∃ g1 ws d e ws2 call rest, HeadMatch b s g1 ws d e ws2 call rest ∧
      (Re.seqs tail).Can false rest b' s' := by
  unfold head5
  rw [Re.can_seqs_cons (by simp)]
  constructor
  · rintro ⟨b1, s1, h1, h⟩
    rw [Re.can_seqs_cons (by simp)] at h
    obtain ⟨b2, s2, h2, h⟩ := h
    rw [Re.can_seqs_cons (by simp)] at h
    obtain ⟨b3, s3, h3, h⟩ := h
    rw [Re.can_seqs_cons (by simp)] at h
    obtain ⟨b4, s4, h4, h⟩ := h
    rw [Re.can_seqs_cons ht] at h
    obtain ⟨b5, s5, h5, h⟩ := h
    obtain ⟨g1, rfl, hg1, rfl⟩ := mem_starRun h1
    obtain ⟨rfl, d, e, rfl, hd, he⟩ := can_de.1 h3
    obtain ⟨ws2, rfl, hw0, hw2, rfl⟩ := can_plus h4
    obtain ⟨call, rfl, hc0, hc, rfl⟩ := can_plus (show (Re.plus reCall).Can _ _ _ _ from h5)
    have hws : ∃ ws, s1 = ws ++ d :: e :: (ws2 ++ (call ++ s5)) ∧ (∀ c ∈ ws, reSpace c = true) ∧ (ws ≠ [] ∨ (b = true ∧ g1 = [])) := by
      rcases h2 with h2 | ⟨hb, _, e2⟩
      · obtain ⟨ws, rfl, h0, hw, _⟩ := can_plus h2
        exact ⟨ws, rfl, hw, .inl h0⟩
      · subst e2
        refine ⟨[], rfl, by simp, .inr ?_⟩
        simpa using hb
    obtain ⟨ws, rfl, hws, hor⟩ := hws
    exact ⟨g1, ws, d, e, ws2, call, s5, ⟨by simp, hg1, hws, hor, hd, he, hw2, hw0, hc, hc0⟩, h⟩
  · rintro ⟨g1, ws, d, e, ws2, call, rest, ⟨rfl, hg1, hws, hor, hd, he, hw2, hw0, hc, hc0⟩, h⟩
    refine ⟨b && g1.isEmpty, ws ++ d :: e :: (ws2 ++ call ++ rest), ?_, ?_⟩
    · have := starRun_all (p := reCalls) g1 (ws ++ d :: e :: (ws2 ++ call ++ rest)) b hg1
      show (b && g1.isEmpty, ws ++ d :: e :: (ws2 ++ call ++ rest)) ∈ starRun reCalls b _
      simpa using this
    · rw [Re.can_seqs_cons (by simp)]
      have h2 : ∃ b2, (Re.alt (Re.plus reSpace) Re.bot).Can (b && g1.isEmpty) (ws ++ d :: e :: (ws2 ++ call ++ rest)) b2
          (d :: e :: (ws2 ++ call ++ rest)) := by
        by_cases h0 : ws = []
        · rcases hor with h1 | ⟨rfl, rfl⟩
          · exact absurd h0 h1
          · subst h0; exact ⟨true, .inr ⟨rfl, rfl, rfl⟩⟩
        · exact ⟨false, .inl (plus_can h0 hws)⟩
      obtain ⟨b2, h2⟩ := h2
      refine ⟨b2, _, h2, ?_⟩
      rw [Re.can_seqs_cons (by simp)]
      refine ⟨false, ws2 ++ (call ++ rest), can_de.2 ⟨rfl, d, e, by simp, hd, he⟩, ?_⟩
      rw [Re.can_seqs_cons (by simp)]
      refine ⟨false, call ++ rest, plus_can hw0 hw2, ?_⟩
      rw [Re.can_seqs_cons ht]
      exact ⟨false, rest, plus_can (p := reCall) hc0 hc, h⟩

/-- The head of a flattened list. -/
theorem head_flatMap {α β : Type} {f : α → List β} : ∀ {l : List α} {t : β}, (l.flatMap f).head? = some t →
    ∃ pre u post, l = pre ++ u :: post ∧ (∀ x ∈ pre, f x = []) ∧ (f u).head? = some t := by
  intro l
  induction l with
  | nil => intro t h; simp at h
  | cons a as ih =>
    intro t h
    rw [List.flatMap_cons] at h
    rcases hf : f a with _ | ⟨y, ys⟩
    · rw [hf, List.nil_append] at h
      obtain ⟨pre, u, post, rfl, h1, h2⟩ := ih h
      refine ⟨a :: pre, u, post, rfl, ?_, h2⟩
      intro x hx
      rcases List.mem_cons.1 hx with rfl | hx
      · exact hf
      · exact h1 x hx
    · refine ⟨[], a, as, rfl, by simp, ?_⟩
      rw [hf] at h ⊢
      simpa using h

theorem starRun_head (p : Rune → Bool) : ∀ (s : Runes) (b : Bool), ∃ b' l, starRun p b s = (b', s.dropWhile p) :: l := by
  intro s
  induction s with
  | nil => intro b; exact ⟨b, [], rfl⟩
  | cons c cs ih =>
    intro b
    simp only [starRun]
    by_cases h : p c = true
    · rw [if_pos h, List.dropWhile_cons_of_pos h]
      obtain ⟨b', l, e⟩ := ih false
      exact ⟨b', l ++ [(b, c :: cs)], by rw [e]; rfl⟩
    · rw [if_neg h, List.dropWhile_cons_of_neg h]
      exact ⟨b, [], rfl⟩

/-- An expression that can go on after the whole call-sign if it can go on after a part of it. -/
def Re.Absorbs (r : Re) : Prop := ∀ y rest, (∀ c ∈ y, reCall c = true) → (∀ c ∈ rest.head?, reCall c = false) →
  (∃ b' s', r.Can false (y ++ rest) b' s') → ∃ b' s', r.Can false rest b' s'

theorem run_nonempty {r : Re} {s : ReSt} : r.run s ≠ [] ↔ ∃ b' s', r.Can s.atStart s.rest b' s' := by
  constructor
  · intro h
    obtain ⟨t, ht⟩ := List.exists_mem_of_ne_nil _ h
    exact ⟨_, _, (r.can_iff s _ _).1 ⟨t, ht, rfl, rfl⟩⟩
  · rintro ⟨b', s', h⟩ e
    obtain ⟨t, ht, _⟩ := (r.can_iff s b' s').2 h
    rw [e] at ht
    cases ht

theorem dropWhile_stops {p : Rune → Bool} : ∀ (s : Runes), ∀ c ∈ (s.dropWhile p).head?, p c = false := by
  intro s
  induction s with
  | nil => simp
  | cons a as ih =>
    by_cases h : p a = true
    · rw [List.dropWhile_cons_of_pos h]; exact ih
    · rw [List.dropWhile_cons_of_neg h]
      intro c hc
      simp at hc
      subst hc
      simpa using h

theorem dropWhile_all {p : Rune → Bool} {x y : Runes} (hx : ∀ c ∈ x, p c = true) (hy : ∀ c ∈ y.head?, p c = false) :
    (x ++ y).dropWhile p = y := by
  induction x with
  | nil =>
    cases y with
    | nil => rfl
    | cons a as =>
      have := hy a (by simp)
      simp [this]
  | cons a as ih =>
    rw [List.cons_append, List.dropWhile_cons_of_pos (hx a (by simp))]
    exact ih (fun c hc => hx c (by simp [hc]))

/-- two ways to cut a text after the runes of a class -/
theorem span_unique {p : Rune → Bool} {x y x' y' : Runes} (hx : ∀ c ∈ x, p c = true) (hy : ∀ c ∈ y.head?, p c = false)
    (hx' : ∀ c ∈ x', p c = true) (hy' : ∀ c ∈ y'.head?, p c = false) (h : x ++ y = x' ++ y') : x = x' ∧ y = y' := by
  have : y = y' := by rw [← dropWhile_all hx hy, h, dropWhile_all hx' hy']
  subst this
  exact ⟨List.append_cancel_right h, rfl⟩

/-- The preferred match: the call-sign is as long as it can be, the groups 1 and 2 are as they should be. -/
theorem head5_first {tail : List Re} (ht : tail ≠ []) (hab : (Re.seqs tail).Absorbs) {b : Bool} {s : Runes} {t : ReSt}
    (h : ((Re.seqs (head5 tail)).run ⟨b, s, []⟩).head? = some t) :
    ∃ g1 ws d e ws2 call rest, HeadMatch b s g1 ws d e ws2 call rest ∧ (∀ c ∈ rest.head?, reCall c = false) ∧
      ((Re.seqs tail).run ⟨false, rest, [(2, call), (1, g1)]⟩).head? = some t := by
  unfold head5 at h
  rw [Re.run_seqs_cons (by simp)] at h
  obtain ⟨p1, u1, q1, e1, _, h⟩ := head_flatMap h
  rw [Re.run_seqs_cons (by simp)] at h
  obtain ⟨p2, u2, q2, e2, _, h⟩ := head_flatMap h
  rw [Re.run_seqs_cons (by simp)] at h
  obtain ⟨p3, u3, q3, e3, _, h⟩ := head_flatMap h
  rw [Re.run_seqs_cons (by simp)] at h
  obtain ⟨p4, u4, q4, e4, _, h⟩ := head_flatMap h
  rw [Re.run_seqs_cons ht] at h
  obtain ⟨p5, u5, q5, e5, hp5, h⟩ := head_flatMap h
  have m1 : u1 ∈ (Re.cap 1 (.star reCalls)).run ⟨b, s, []⟩ := by rw [e1]; simp
  have m2 : u2 ∈ (Re.alt (Re.plus reSpace) Re.bot).run u1 := by rw [e2]; simp
  have m3 : u3 ∈ (reWord "DE").run u2 := by rw [e3]; simp
  have m4 : u4 ∈ (Re.plus reSpace).run u3 := by rw [e4]; simp
  have m5 : u5 ∈ (Re.cap 2 (Re.plus reCall)).run u4 := by rw [e5]; simp
  have noCaps : ∀ (r : Re) (x y : ReSt), r.AllCaps (fun _ _ => False) → y ∈ r.run x → y.caps = x.caps := by
    intro r x y hr hy
    obtain ⟨new, e, hn⟩ := Re.caps_of_run hr hy
    cases new with
    | nil => simpa using e
    | cons q qs => exact (hn q (by simp)).elim
  have k2 : u2.caps = u1.caps := noCaps (Re.alt (Re.plus reSpace) Re.bot) _ _ ⟨⟨trivial, trivial⟩, trivial⟩ m2
  have k3 : u3.caps = u2.caps := noCaps (reWord "DE") _ _ ⟨trivial, trivial⟩ m3
  have k4 : u4.caps = u3.caps := noCaps (Re.plus reSpace) _ _ ⟨trivial, trivial⟩ m4
  -- the contents
  have c2 := (Re.can_iff _ _ _ _).1 ⟨u2, m2, rfl, rfl⟩
  have c3 := (Re.can_iff _ _ _ _).1 ⟨u3, m3, rfl, rfl⟩
  have c4 := (Re.can_iff _ _ _ _).1 ⟨u4, m4, rfl, rfl⟩
  simp only [Re.run, List.map_map, List.mem_map, Function.comp] at m1
  obtain ⟨⟨b1, s1⟩, hs1, rfl⟩ := m1
  obtain ⟨g1, rfl, hg1, rfl⟩ := mem_starRun hs1
  obtain ⟨k3b, d, e, r3, hd, he⟩ := can_de.1 c3
  obtain ⟨ws2, r4, hw0, hw2, k4b⟩ := can_plus c4
  simp only [Re.run, List.mem_map] at m5
  obtain ⟨v5, hv5, rfl⟩ := m5
  have c5 := (Re.can_iff (Re.plus reCall) _ _ _).1 ⟨v5, hv5, rfl, rfl⟩
  have kv : v5.caps = u4.caps := noCaps (Re.plus reCall) _ _ ⟨trivial, trivial⟩ hv5
  obtain ⟨call, r5, hc0, hc, k5b⟩ := can_plus c5
  have htake : ∀ (x y : Runes), (x ++ y).take ((x ++ y).length - y.length) = x := by intro x y; simp
  simp only at c2 k2 hp5 h
  rw [r5, htake, kv, k4, k3, k2, htake] at h
  refine ⟨g1, ?_⟩
  have hws : ∃ ws, s1 = ws ++ d :: e :: (ws2 ++ (call ++ v5.rest)) ∧ (∀ c ∈ ws, reSpace c = true) ∧ (ws ≠ [] ∨ (b = true ∧ g1 = [])) := by
    rw [← r5, ← r4, ← r3]
    rcases c2 with c2 | ⟨hb, _, e2⟩
    · obtain ⟨ws, h1, h0, hw, _⟩ := can_plus c2
      exact ⟨ws, h1, hw, .inl h0⟩
    · refine ⟨[], e2.symm, by simp, .inr ?_⟩
      simpa using hb
  obtain ⟨ws, hs1', hws, hor⟩ := hws
  refine ⟨ws, d, e, ws2, call, v5.rest, ⟨by rw [hs1']; simp, hg1, hws, hor, hd, he, hw2, hw0, hc, hc0⟩, ?_, ?_⟩
  · -- the longest call-sign comes first
    have hu4 : u4.rest = call ++ v5.rest := r5
    cases hcall : call with
    | nil => exact absurd hcall hc0
    | cons c1 cs1 =>
      rw [hcall] at hu4 hc
      have hrun : ∃ (x : ReSt) (l : List ReSt), (Re.cap 2 (Re.plus reCall)).run u4 = x :: l ∧ x.atStart = false ∧
          x.rest = (cs1 ++ v5.rest).dropWhile reCall := by
        obtain ⟨b', l, hl⟩ := starRun_head reCall (cs1 ++ v5.rest) false
        have hb' : b' = false := by
          have hm : (b', (cs1 ++ v5.rest).dropWhile reCall) ∈ starRun reCall false (cs1 ++ v5.rest) := by rw [hl]; simp
          obtain ⟨w, _, _, hb⟩ := mem_starRun hm
          simpa using hb
        have : (Re.plus reCall).run u4 = ((b', (cs1 ++ v5.rest).dropWhile reCall) :: l).map
            (fun r => { u4 with atStart := r.1, rest := r.2 }) := by
          simp only [Re.plus, Re.run, hu4, List.cons_append]
          rw [if_pos (hc c1 (by simp))]
          simp only [List.flatMap_cons, List.flatMap_nil, List.append_nil]
          rw [hl]
        simp only [Re.run]
        rw [this]
        exact ⟨_, _, rfl, hb', rfl⟩
      obtain ⟨x, l, hx, hxb, hxr⟩ := hrun
      rw [hx] at e5
      cases p5 with
      | nil =>
        have e6 := (List.cons.inj e5).1
        have : v5.rest = x.rest := by rw [e6]
        rw [this, hxr]
        exact dropWhile_stops _
      | cons z zs =>
        have e6 := (List.cons.inj e5).1
        have hz := hp5 z (by simp)
        exfalso
        have hne : (Re.seqs tail).run x ≠ [] := by
          rw [run_nonempty, hxb, hxr]
          obtain ⟨t1, ht1⟩ : ∃ t1, t1 ∈ (Re.seqs tail).run { v5 with caps := (2, call) :: (1, g1) :: [] } :=
            ⟨t, List.mem_of_mem_head? h⟩
          have hcan := (Re.can_iff _ _ _ _).1 ⟨t1, ht1, rfl, rfl⟩
          simp only [k5b] at hcan
          obtain ⟨y, hy⟩ : ∃ y, v5.rest = y ++ v5.rest.dropWhile reCall ∧ ∀ c ∈ y, reCall c = true :=
            ⟨v5.rest.takeWhile reCall, by simp, fun c hc => List.all_eq_true.1 List.all_takeWhile c hc⟩
          have hdrop : (cs1 ++ v5.rest).dropWhile reCall = v5.rest.dropWhile reCall := by
            conv => lhs; rw [hy.1, ← List.append_assoc]
            refine dropWhile_all ?_ (dropWhile_stops _)
            intro c hcc
            rcases List.mem_append.1 hcc with hcc | hcc
            · exact hc c (by simp [hcc])
            · exact hy.2 c hcc
          rw [hdrop]
          refine hab y _ hy.2 (dropWhile_stops _) ?_
          rw [← hy.1]
          exact ⟨_, _, hcan⟩
        rw [e6] at hne
        exact hne hz
  · rw [k5b] at h
    exact h

end K431
