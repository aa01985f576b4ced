import Verif.Radiogram

/-! # Helper lemmas: regular expressions -/

namespace K431

/-- Which rests an expression can leave, without captures. -/
def Re.Can : Re → Bool → Runes → Bool → Runes → Prop
  | .eps, b, s, b', s' => b' = b ∧ s' = s
  | .cls p, _, s, b', s' => b' = false ∧ ∃ c, s = c :: s' ∧ p c = true
  | .seq x y, b, s, b', s' => ∃ b1 s1, x.Can b s b1 s1 ∧ y.Can b1 s1 b' s'
  | .alt x y, b, s, b', s' => x.Can b s b' s' ∨ y.Can b s b' s'
  | .star p, b, s, b', s' => (b', s') ∈ starRun p b s
  | .opt x, b, s, b', s' => x.Can b s b' s' ∨ (b' = b ∧ s' = s)
  | .cap _ x, b, s, b', s' => x.Can b s b' s'
  | .bot, b, s, b', s' => b = true ∧ b' = b ∧ s' = s
  | .eot, b, s, b', s' => s = [] ∧ b' = b ∧ s' = s

theorem Re.can_iff (r : Re) : ∀ (s : ReSt) (b' : Bool) (s' : Runes),
    (∃ t ∈ r.run s, t.atStart = b' ∧ t.rest = s') ↔ r.Can s.atStart s.rest b' s' := by
  induction r with
  | eps => intro s b' s'; simp [Re.run, Re.Can, eq_comm]
  | cls p =>
    intro s b' s'
    obtain ⟨b, rest, caps⟩ := s
    cases rest with
    | nil => simp [Re.run, Re.Can]
    | cons c cs =>
      simp only [Re.run, Re.Can]
      by_cases h : p c = true
      · simp only [h, if_true, List.mem_singleton, exists_eq_left]
        constructor
        · rintro ⟨rfl, rfl⟩; exact ⟨rfl, c, rfl, h⟩
        · rintro ⟨rfl, c', e, _⟩; cases e; exact ⟨rfl, rfl⟩
      · rw [if_neg h]
        simp only [List.not_mem_nil, false_and, exists_false, false_iff]
        rintro ⟨_, c', e, hc⟩
        cases e
        exact h hc
  | seq x y ihx ihy =>
    intro s b' s'
    simp only [Re.run, Re.Can, List.mem_flatMap]
    constructor
    · rintro ⟨t, ⟨u, hu, ht⟩, h1, h2⟩
      exact ⟨u.atStart, u.rest, (ihx s _ _).1 ⟨u, hu, rfl, rfl⟩, (ihy u _ _).1 ⟨t, ht, h1, h2⟩⟩
    · rintro ⟨b1, s1, hx, hy⟩
      obtain ⟨u, hu, rfl, rfl⟩ := (ihx s _ _).2 hx
      obtain ⟨t, ht, h1, h2⟩ := (ihy u _ _).2 hy
      exact ⟨t, ⟨u, hu, ht⟩, h1, h2⟩
  | alt x y ihx ihy =>
    intro s b' s'
    simp only [Re.run, Re.Can, List.mem_append, or_and_right, exists_or]
    rw [ihx, ihy]
  | star p =>
    intro s b' s'
    simp only [Re.run, Re.Can, List.mem_map]
    constructor
    · rintro ⟨t, ⟨q, hq, rfl⟩, h1, h2⟩
      simp only at h1 h2
      rw [← h1, ← h2]; exact hq
    · intro h
      exact ⟨_, ⟨_, h, rfl⟩, rfl, rfl⟩
  | opt x ih =>
    intro s b' s'
    simp only [Re.run, Re.Can, List.mem_append, List.mem_singleton, or_and_right, exists_or, exists_eq_left]
    rw [ih]
    constructor
    · rintro (h | ⟨h1, h2⟩)
      · exact .inl h
      · exact .inr ⟨h1.symm, h2.symm⟩
    · rintro (h | ⟨h1, h2⟩)
      · exact .inl h
      · exact .inr ⟨h1.symm, h2.symm⟩
  | cap i x ih =>
    intro s b' s'
    simp only [Re.run, Re.Can, List.mem_map]
    rw [← ih]
    constructor
    · rintro ⟨t, ⟨u, hu, rfl⟩, h1, h2⟩; exact ⟨u, hu, h1, h2⟩
    · rintro ⟨u, hu, h1, h2⟩; exact ⟨_, ⟨u, hu, rfl⟩, h1, h2⟩
  | bot =>
    intro s b' s'
    simp only [Re.run, Re.Can]
    by_cases h : s.atStart = true
    · simp only [h, if_true, List.mem_singleton, exists_eq_left, true_and]
      constructor <;> rintro ⟨h1, h2⟩ <;> exact ⟨h1.symm, h2.symm⟩
    · rw [if_neg h]; simp [h]
  | eot =>
    intro s b' s'
    simp only [Re.run, Re.Can]
    by_cases h : s.rest = []
    · simp only [h, List.isEmpty_nil, if_true, List.mem_singleton, exists_eq_left, true_and]
      constructor <;> rintro ⟨h1, h2⟩ <;> exact ⟨h1.symm, h2.symm⟩
    · simp [h]

/-- A greedy repetition consumes runes of the class. -/
theorem mem_starRun {p : Rune → Bool} : ∀ {s : Runes} {b b' : Bool} {s' : Runes}, (b', s') ∈ starRun p b s →
    ∃ w, s = w ++ s' ∧ (∀ c ∈ w, p c = true) ∧ b' = (b && w.isEmpty) := by
  intro s
  induction s with
  | nil => intro b b' s' h; simp [starRun] at h; exact ⟨[], by simp [h]⟩
  | cons c cs ih =>
    intro b b' s' h
    simp only [starRun] at h
    by_cases hc : p c = true
    · simp only [hc, if_true, List.mem_append, List.mem_singleton, Prod.mk.injEq] at h
      rcases h with h | ⟨rfl, rfl⟩
      · obtain ⟨w, rfl, h1, h2⟩ := ih h
        refine ⟨c :: w, rfl, ?_, by simp [h2]⟩
        intro x hx
        rcases List.mem_cons.1 hx with rfl | hx
        · exact hc
        · exact h1 x hx
      · exact ⟨[], by simp⟩
    · rw [if_neg hc] at h
      simp only [List.mem_singleton, Prod.mk.injEq] at h
      exact ⟨[], by simp [h]⟩

theorem starRun_all {p : Rune → Bool} : ∀ (w s' : Runes) (b : Bool), (∀ c ∈ w, p c = true) →
    (b && w.isEmpty, s') ∈ starRun p b (w ++ s') := by
  intro w
  induction w with
  | nil =>
    intro s' b _
    cases s' with
    | nil => simp [starRun]
    | cons c cs =>
      simp only [starRun, List.nil_append, List.isEmpty_nil, Bool.and_true]
      split <;> simp
  | cons c w ih =>
    intro s' b h
    simp only [starRun, List.cons_append]
    rw [if_pos (h c (by simp))]
    have := ih s' false (fun x hx => h x (by simp [hx]))
    simp only [Bool.false_and] at this
    simp [this]

/-- What is left is a suffix, and the beginning of the text is left behind exactly if something was consumed. -/
theorem Re.Can.suffix {r : Re} : ∀ {b : Bool} {s : Runes} {b' : Bool} {s' : Runes}, r.Can b s b' s' →
    ∃ w, s = w ++ s' ∧ b' = (b && w.isEmpty) := by
  induction r with
  | eps => rintro b s b' s' ⟨rfl, rfl⟩; exact ⟨[], by simp⟩
  | cls p => rintro b s b' s' ⟨rfl, c, rfl, _⟩; exact ⟨[c], by simp⟩
  | seq x y ihx ihy =>
    rintro b s b' s' ⟨b1, s1, hx, hy⟩
    obtain ⟨w1, rfl, rfl⟩ := ihx hx
    obtain ⟨w2, rfl, rfl⟩ := ihy hy
    refine ⟨w1 ++ w2, by simp, ?_⟩
    cases w1 <;> simp
  | alt x y ihx ihy =>
    rintro b s b' s' (h | h)
    · exact ihx h
    · exact ihy h
  | star p => intro b s b' s' h; obtain ⟨w, h1, _, h2⟩ := mem_starRun h; exact ⟨w, h1, h2⟩
  | opt x ih =>
    rintro b s b' s' (h | ⟨rfl, rfl⟩)
    · exact ih h
    · exact ⟨[], by simp⟩
  | cap i x ih => intro b s b' s' h; exact ih h
  | bot => rintro b s b' s' ⟨_, rfl, rfl⟩; exact ⟨[], by simp⟩
  | eot => rintro b s b' s' ⟨_, rfl, rfl⟩; exact ⟨[], by simp⟩

/-- The expression consumes only runes of the class. -/
def Re.Only (p : Rune → Bool) (r : Re) : Prop := ∀ b w b' s', r.Can b (w ++ s') b' s' → ∀ c ∈ w, p c = true

theorem Re.only_cls (p : Rune → Bool) : (Re.cls p).Only p := by
  rintro b w b' s' ⟨_, c, e, h⟩ x hx
  have : w = [c] := List.append_cancel_right (by simpa using e)
  subst this
  simpa using by rw [List.mem_singleton.1 hx]; exact h

theorem Re.only_star (p : Rune → Bool) : (Re.star p).Only p := by
  intro b w b' s' h
  obtain ⟨w', e, h1, _⟩ := mem_starRun h
  have : w = w' := List.append_cancel_right e
  subst this
  exact h1

theorem Re.only_eps (p : Rune → Bool) : Re.eps.Only p := by
  rintro b w b' s' ⟨_, e⟩
  have : w = [] := by simpa using e.symm
  simp [this]

theorem Re.Only.seq {p : Rune → Bool} {x y : Re} (hx : x.Only p) (hy : y.Only p) : (Re.seq x y).Only p := by
  rintro b w b' s' ⟨b1, s1, h1, h2⟩
  obtain ⟨w1, e1, _⟩ := h1.suffix
  obtain ⟨w2, e2, _⟩ := h2.suffix
  subst e2
  have : w = w1 ++ w2 := List.append_cancel_right (by rw [e1]; simp)
  subst this
  intro c hc
  rw [e1] at h1
  rcases List.mem_append.1 hc with hc | hc
  · exact hx b w1 b1 _ h1 c hc
  · exact hy b1 w2 b' s' h2 c hc

theorem Re.Only.alt {p : Rune → Bool} {x y : Re} (hx : x.Only p) (hy : y.Only p) : (Re.alt x y).Only p := by
  rintro b w b' s' (h | h)
  · exact hx b w b' s' h
  · exact hy b w b' s' h

theorem Re.Only.opt {p : Rune → Bool} {x : Re} (hx : x.Only p) : (Re.opt x).Only p := by
  rintro b w b' s' (h | ⟨_, e⟩)
  · exact hx b w b' s' h
  · have : w = [] := by simpa using e.symm
    simp [this]

theorem Re.Only.cap {p : Rune → Bool} {x : Re} {i : Nat} (hx : x.Only p) : (Re.cap i x).Only p := hx

theorem Re.Only.mono {p q : Rune → Bool} {x : Re} (hx : x.Only p) (h : ∀ c, p c = true → q c = true) : x.Only q :=
  fun b w b' s' hc c hm => h c (hx b w b' s' hc c hm)

/-- The expression can match nothing. -/
def Re.Nullable (r : Re) : Prop := ∀ b s, r.Can b s b s

theorem Re.nullable_star (p : Rune → Bool) : (Re.star p).Nullable := by
  intro b s
  have := starRun_all (p := p) [] s b (by simp)
  simp only [List.isEmpty_nil, Bool.and_true, List.nil_append] at this
  exact this

theorem Re.nullable_opt (x : Re) : (Re.opt x).Nullable := fun _ _ => .inr ⟨rfl, rfl⟩

theorem Re.nullable_eps : Re.eps.Nullable := fun _ _ => ⟨rfl, rfl⟩

theorem Re.can_seqs_cons {a : Re} {l : List Re} (hl : l ≠ []) {b b' : Bool} {s s' : Runes} :
    (Re.seqs (a :: l)).Can b s b' s' ↔ ∃ b1 s1, a.Can b s b1 s1 ∧ (Re.seqs l).Can b1 s1 b' s' := by
  cases l with
  | nil => exact absurd rfl hl
  | cons x xs => rfl

theorem Re.run_seqs_cons {a : Re} {l : List Re} (hl : l ≠ []) (s : ReSt) :
    (Re.seqs (a :: l)).run s = (a.run s).flatMap (Re.seqs l).run := by
  cases l with
  | nil => exact absurd rfl hl
  | cons x xs => rfl

/-- Captures: every group satisfies `P`. -/
def Re.AllCaps (P : Nat → Runes → Prop) : Re → Prop
  | .seq x y => x.AllCaps P ∧ y.AllCaps P
  | .alt x y => x.AllCaps P ∧ y.AllCaps P
  | .opt x => x.AllCaps P
  | .cap i x => x.AllCaps P ∧ ∀ b w b' s', x.Can b (w ++ s') b' s' → P i w
  | _ => True

/-- A match adds captures in front, all of which satisfy `P`. -/
theorem Re.caps_of_run {P : Nat → Runes → Prop} {r : Re} (h : r.AllCaps P) : ∀ {s t : ReSt}, t ∈ r.run s →
    ∃ new, t.caps = new ++ s.caps ∧ ∀ q ∈ new, P q.1 q.2 := by
  induction r with
  | eps => intro s t ht; simp [Re.run] at ht; subst ht; exact ⟨[], by simp⟩
  | cls p =>
    intro s t ht
    simp only [Re.run] at ht
    split at ht
    · cases ht
    · split at ht
      · simp at ht; subst ht; exact ⟨[], by simp⟩
      · cases ht
  | seq x y ihx ihy =>
    intro s t ht
    simp only [Re.run, List.mem_flatMap] at ht
    obtain ⟨u, hu, ht⟩ := ht
    obtain ⟨n1, e1, p1⟩ := ihx h.1 hu
    obtain ⟨n2, e2, p2⟩ := ihy h.2 ht
    refine ⟨n2 ++ n1, by rw [e2, e1]; simp, ?_⟩
    intro q hq
    rcases List.mem_append.1 hq with hq | hq
    · exact p2 q hq
    · exact p1 q hq
  | alt x y ihx ihy =>
    intro s t ht
    simp only [Re.run, List.mem_append] at ht
    rcases ht with ht | ht
    · exact ihx h.1 ht
    · exact ihy h.2 ht
  | star p =>
    intro s t ht
    simp only [Re.run, List.mem_map] at ht
    obtain ⟨q, _, rfl⟩ := ht
    exact ⟨[], by simp⟩
  | opt x ih =>
    intro s t ht
    simp only [Re.run, List.mem_append, List.mem_singleton] at ht
    rcases ht with ht | rfl
    · exact ih h ht
    · exact ⟨[], by simp⟩
  | cap i x ih =>
    intro s t ht
    simp only [Re.run, List.mem_map] at ht
    obtain ⟨u, hu, rfl⟩ := ht
    obtain ⟨n1, e1, p1⟩ := ih h.1 hu
    refine ⟨_ :: n1, by simp only [e1, List.cons_append]; rfl, ?_⟩
    intro q hq
    rcases List.mem_cons.1 hq with rfl | hq
    · have hc := (Re.can_iff x s u.atStart u.rest).1 ⟨u, hu, rfl, rfl⟩
      obtain ⟨w, e, _⟩ := hc.suffix
      rw [e] at hc
      have : s.rest.take (s.rest.length - u.rest.length) = w := by
        rw [e]; simp
      simp only
      rw [this]
      exact h.2 _ _ _ _ hc
    · exact p1 q hq
  | bot => intro s t ht; simp only [Re.run] at ht; split at ht <;> simp at ht; subst ht; exact ⟨[], by simp⟩
  | eot => intro s t ht; simp only [Re.run] at ht; split at ht <;> simp at ht; subst ht; exact ⟨[], by simp⟩

/-- The leftmost match starts somewhere, and if not at the beginning, there is no match at the beginning. -/
theorem Re.findFrom_some {r : Re} : ∀ {s : Runes} {n : Nat} {b : Bool} {k : Nat} {t : ReSt}, r.findFrom n b s = some (k, t) →
    ∃ pre s', s = pre ++ s' ∧ k = n + pre.length ∧ (r.run ⟨b && pre.isEmpty, s', []⟩).head? = some t ∧
      (pre = [] ∨ r.run ⟨b, s, []⟩ = []) := by
  intro s
  induction s with
  | nil =>
    intro n b k t h
    unfold Re.findFrom at h
    rcases hr : (r.run ⟨b, [], []⟩).head? with _ | t'
    · rw [hr] at h; cases h
    · rw [hr] at h; cases h; exact ⟨[], [], rfl, by simp, by simpa using hr, .inl rfl⟩
  | cons c cs ih =>
    intro n b k t h
    unfold Re.findFrom at h
    rcases hr : (r.run ⟨b, c :: cs, []⟩).head? with _ | t'
    · rw [hr] at h
      simp only at h
      obtain ⟨pre, s', rfl, rfl, h3, _⟩ := ih h
      exact ⟨c :: pre, s', rfl, by simp; omega, by simpa using h3, .inr (by simpa using hr)⟩
    · rw [hr] at h; cases h; exact ⟨[], c :: cs, rfl, by simp, by simpa using hr, .inl rfl⟩

theorem Re.findFrom_none {r : Re} : ∀ {s : Runes} {n : Nat} {b : Bool}, r.findFrom n b s = none →
    ∀ pre s', s = pre ++ s' → r.run ⟨b && pre.isEmpty, s', []⟩ = [] := by
  intro s
  induction s with
  | nil =>
    intro n b h pre s' e
    unfold Re.findFrom at h
    obtain ⟨rfl, rfl⟩ := List.append_eq_nil_iff.1 e.symm
    rcases hr : (r.run ⟨b, [], []⟩).head? with _ | t'
    · simpa using hr
    · rw [hr] at h; cases h
  | cons c cs ih =>
    intro n b h pre s' e
    unfold Re.findFrom at h
    rcases hr : (r.run ⟨b, c :: cs, []⟩).head? with _ | t'
    · rw [hr] at h
      simp only at h
      cases pre with
      | nil => simp at e; subst e; simpa using hr
      | cons p ps =>
        simp only [List.cons_append, List.cons.injEq] at e
        have := ih h ps s' e.2
        simpa using this
    · rw [hr] at h; cases h

/-- If the expression matches at the beginning, that match is found. -/
theorem Re.find_here {r : Re} {s : Runes} {t : ReSt} (h : (r.run ⟨true, s, []⟩).head? = some t) : r.find s = some (0, t) := by
  unfold Re.find Re.findFrom
  rw [h]

end K431
