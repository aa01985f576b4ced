import Verif.SpecForms
import Verif.TrailLemmas
import Verif.TrafficMatch

/-! # Helper lemmas: the ends of a radiogram -/

namespace K431
open Spec

theorem over_k {c : Rune} : reKPlus c = true ↔ OverSign c := by
  simp [reKPlus, reLit, OverSign, kelvin]
  omega

theorem can_ar {b b' : Bool} {s s' : Runes} : (reWord "AR").Can b s b' s' ↔
    b' = false ∧ ∃ a r, s = a :: r :: s' ∧ (a = 65 ∨ a = 97) ∧ (r = 82 ∨ r = 114) := by
  have hw : reWord "AR" = .seq (.cls (reLit 65)) (.cls (reLit 82)) := rfl
  rw [hw]
  simp only [Re.Can]
  have l1 : ∀ c, reLit 65 c = true ↔ (c = 65 ∨ c = 97) := by intro c; simp [reLit]
  have l2 : ∀ c, reLit 82 c = true ↔ (c = 82 ∨ c = 114) := by intro c; simp [reLit]
  constructor
  · rintro ⟨b1, s1, ⟨rfl, d, rfl, hd⟩, rfl, e, rfl, he⟩
    exact ⟨rfl, d, e, rfl, (l1 d).1 hd, (l2 e).1 he⟩
  · rintro ⟨rfl, d, e, rfl, hd, he⟩
    exact ⟨false, e :: s', ⟨rfl, d, rfl, (l1 d).2 hd⟩, rfl, e, rfl, (l2 e).2 he⟩

/-- what the expression for the end matches is the end of a message -/
theorem trail_mark {b b' : Bool} {s s' : Runes} (h : regexpTrail.Can b s b' s') : EndMark s := by
  obtain ⟨b1, s1, h1, b2, s2, h2, h3⟩ := h
  obtain ⟨g2, rfl, hg2⟩ := can_star h2
  obtain ⟨h3, _, rfl⟩ := h3
  subst h3
  have hb : ∀ {g : Runes}, (∀ c ∈ g, reSpace c = true) → ∀ c ∈ g, Blank c := fun h c hc => (reSpace_iff c).1 (h c hc)
  simp only [List.append_nil] at h1
  rcases h1 with h1 | h1 | h1 | h1
  · obtain ⟨_, _, h1, _, _, ⟨_, e, rfl, he⟩, _, _, h4, _, k, rfl, hk⟩ := h1
    obtain ⟨g, rfl, hg⟩ := can_star h1
    obtain ⟨g1, rfl, hg1⟩ := can_star h4
    have : e = 61 := by simpa [reEq] using he
    subst this
    refine .equalOver ?_ (over_k.1 hk)
    intro c hc
    simp only [List.mem_append] at hc
    rcases hc with (hc | hc) | hc
    · exact hb hg c hc
    · exact hb hg1 c hc
    · exact hb hg2 c hc
  · obtain ⟨_, _, ⟨_, e, rfl, he⟩, _, k, rfl, hk⟩ := h1
    refine .over (g := [e]) (by simp) ?_ (over_k.1 hk)
    intro c hc
    simp only [List.mem_append, List.mem_singleton] at hc
    rcases hc with rfl | hc
    · exact (reSpace_iff c).1 he
    · exact hb hg2 c hc
  · obtain ⟨_, _, h1, _, _, ⟨_, e, rfl, he⟩, _, _, h4, _, f, rfl, hf⟩ := h1
    obtain ⟨g, rfl, hg⟩ := can_star h1
    obtain ⟨_, a, r, rfl, ha, hr⟩ := can_ar.1 h4
    have e1 : e = 91 := by simpa using he
    have e2 : f = 93 := by simpa using hf
    subst e1 e2
    refine .ar ?_ ha hr
    intro c hc
    simp only [List.mem_append] at hc
    rcases hc with hc | hc
    · exact hb hg c hc
    · exact hb hg2 c hc
  · obtain ⟨_, _, h1, _, _, ⟨_, e, rfl, he⟩, _, _, h4, h5⟩ := h1
    obtain ⟨g, rfl, hg⟩ := can_star h1
    obtain ⟨g1, rfl, hg1⟩ := can_star h4
    obtain ⟨_, a, r, rfl, ha, hr⟩ := can_ar.1 h5
    have : e = 61 := by simpa [reEq] using he
    subst this
    refine .equalAr ?_ ha hr
    intro c hc
    simp only [List.mem_append] at hc
    rcases hc with (hc | hc) | hc
    · exact hb hg c hc
    · exact hb hg1 c hc
    · exact hb hg2 c hc

/-- the expression matches at the end of a message, perhaps after some of its blanks -/
theorem mark_trail {z : Runes} (h : EndMark z) (b : Bool) : ∃ g z', z = g ++ z' ∧ regexpTrail.run ⟨b && g.isEmpty, z', []⟩ ≠ [] := by
  have hst : ∀ (w s' : Runes) (b : Bool), (∀ c ∈ w, Blank c) → ∃ b', reBlanks.Can b (w ++ s') b' s' := by
    intro w s' b hw
    exact ⟨_, starRun_all w s' b (fun c hc => (reSpace_iff c).2 (hw c hc))⟩
  have hend : ∀ (g : Runes), (∀ c ∈ g, Blank c) → reBlanks.Can false g false [] := by
    intro g hg
    have := starRun_all (p := reSpace) g [] false (fun c hc => (reSpace_iff c).2 (hg c hc))
    simp only [List.append_nil, Bool.false_and] at this
    exact this
  cases h with
  | @over g g2 k h0 hg hk =>
    rcases List.eq_nil_or_concat g with rfl | ⟨g', x, rfl⟩
    · exact absurd rfl h0
    · refine ⟨g', x :: k :: g2, by simp, run_nonempty.2 ⟨false, [], ?_⟩⟩
      refine ⟨false, g2, .inr (.inl ⟨false, k :: g2, ⟨rfl, x, rfl, (reSpace_iff x).2 (hg x (by simp))⟩, rfl, k, rfl, over_k.2 hk⟩),
        false, [], hend g2 (fun c hc => hg c (by simp [hc])), rfl, rfl, rfl⟩
  | @equalOver g g1 g2 k hg hk =>
    refine ⟨[], _, rfl, run_nonempty.2 ⟨false, [], ?_⟩⟩
    obtain ⟨b1, c1⟩ := hst g (61 :: (g1 ++ k :: g2)) (b && ([] : Runes).isEmpty) (fun c hc => hg c (by simp [hc]))
    obtain ⟨b2, c2⟩ := hst g1 (k :: g2) false (fun c hc => hg c (by simp [hc]))
    exact ⟨false, g2, .inl ⟨b1, _, c1, false, _, ⟨rfl, 61, rfl, by decide⟩, b2, _, c2, rfl, k, rfl, over_k.2 hk⟩,
      false, [], hend g2 (fun c hc => hg c (by simp [hc])), rfl, rfl, rfl⟩
  | @ar g g2 a r hg ha hr =>
    refine ⟨[], _, rfl, run_nonempty.2 ⟨false, [], ?_⟩⟩
    obtain ⟨b1, c1⟩ := hst g (91 :: a :: r :: 93 :: g2) (b && ([] : Runes).isEmpty) (fun c hc => hg c (by simp [hc]))
    exact ⟨false, g2, .inr (.inr (.inl ⟨b1, _, c1, false, _, ⟨rfl, 91, rfl, by decide⟩, false, 93 :: g2, can_ar.2 ⟨rfl, a, r, rfl, ha, hr⟩,
      rfl, 93, rfl, by decide⟩)), false, [], hend g2 (fun c hc => hg c (by simp [hc])), rfl, rfl, rfl⟩
  | @equalAr g g1 g2 a r hg ha hr =>
    refine ⟨[], _, rfl, run_nonempty.2 ⟨false, [], ?_⟩⟩
    obtain ⟨b1, c1⟩ := hst g (61 :: (g1 ++ a :: r :: g2)) (b && ([] : Runes).isEmpty) (fun c hc => hg c (by simp [hc]))
    obtain ⟨b2, c2⟩ := hst g1 (a :: r :: g2) false (fun c hc => hg c (by simp [hc]))
    exact ⟨false, g2, .inr (.inr (.inr ⟨b1, _, c1, false, _, ⟨rfl, 61, rfl, by decide⟩, b2, _, c2, can_ar.2 ⟨rfl, a, r, rfl, ha, hr⟩⟩)),
      false, [], hend g2 (fun c hc => hg c (by simp [hc])), rfl, rfl, rfl⟩

/-- what can be seen of the end of a message -/
def Seen (l : Runes) : Prop :=
  (∃ k, OverSign k ∧ (l = [k] ∨ l = [61, k])) ∨ (∃ a r, l = [91, a, r, 93]) ∨ ∃ a r, (r = 82 ∨ r = 114) ∧ l = [61, a, r]

theorem inked_blanks {g : Runes} (h : ∀ c ∈ g, Blank c) : inked g = [] := inked_blank (fun c hc => (reSpace_iff c).2 (h c hc))

theorem over_not_space {k : Rune} (h : OverSign k) : reSpace k = false := by
  simp only [OverSign, kelvin] at h
  simp [reSpace]; omega

theorem mark_seen {z : Runes} (h : EndMark z) : Seen (inked z) := by
  cases h with
  | @over g g2 k h0 hg hk =>
    refine .inl ⟨k, hk, .inl ?_⟩
    rw [inked_append, inked_cons (over_not_space hk), inked_blanks (fun c hc => hg c (by simp [hc])), inked_blanks (fun c hc => hg c (by simp [hc]))]
    rfl
  | @equalOver g g1 g2 k hg hk =>
    refine .inl ⟨k, hk, .inr ?_⟩
    rw [inked_append, inked_cons (by decide), inked_append, inked_cons (over_not_space hk), inked_blanks (fun c hc => hg c (by simp [hc])),
      inked_blanks (fun c hc => hg c (by simp [hc])), inked_blanks (fun c hc => hg c (by simp [hc]))]
    rfl
  | @ar g g2 a r hg ha hr =>
    refine .inr (.inl ⟨a, r, ?_⟩)
    rw [inked_append, inked_cons (by decide), inked_cons (by rcases ha with rfl | rfl <;> decide), inked_cons (by rcases hr with rfl | rfl <;> decide),
      inked_cons (by decide), inked_blanks (fun c hc => hg c (by simp [hc])), inked_blanks (fun c hc => hg c (by simp [hc]))]
    rfl
  | @equalAr g g1 g2 a r hg ha hr =>
    refine .inr (.inr ⟨a, r, hr, ?_⟩)
    rw [inked_append, inked_cons (by decide), inked_append, inked_cons (by rcases ha with rfl | rfl <;> decide),
      inked_cons (by rcases hr with rfl | rfl <;> decide), inked_blanks (fun c hc => hg c (by simp [hc])),
      inked_blanks (fun c hc => hg c (by simp [hc])), inked_blanks (fun c hc => hg c (by simp [hc]))]
    rfl

theorem seen_suffix {v x z : Runes} (hx : Seen x) (hz : Seen z) (h : z = v ++ x) : ∀ c ∈ v, c = 61 := by
  have hlast := congrArg List.getLast? h
  have hlen := congrArg List.length h
  rw [List.length_append] at hlen
  have hnil : v.length = 0 → ∀ c ∈ v, c = 61 := by
    intro h0; rw [List.length_eq_zero_iff] at h0; subst h0; simp
  simp only [Seen, OverSign, kelvin] at hx hz
  rcases hx with ⟨k, hk, rfl | rfl⟩ | ⟨a, r, rfl⟩ | ⟨a, r, hr, rfl⟩ <;>
    rcases hz with ⟨k', hk', rfl | rfl⟩ | ⟨a', r', rfl⟩ | ⟨a', r', hr', rfl⟩ <;>
    simp only [List.length_cons, List.length_nil] at hlen <;>
    first
      | (exact hnil (by omega))
      | (exfalso; omega)
      | (exfalso; simp at hlast; omega)
      | skip
  have hv : v.length = 1 := by omega
  match v, hv with
  | [y], _ =>
    simp at h
    intro c hc
    simp at hc
    omega

theorem seen_longer {y : Runes} {c : Rune} {z : Runes} (hz : Seen z) (hc : c ≠ 61) (h : Seen (y ++ c :: z)) : False := by
  have e1 := congrArg List.length (rfl : y ++ c :: z = y ++ c :: z)
  have hl : ∀ l, y ++ c :: z = l → y.length + 1 + z.length = l.length ∧ (y ++ c :: z).getLast? = l.getLast? ∧ (y = [] → l.head? = some c) := by
    rintro l rfl
    refine ⟨by simp; omega, rfl, ?_⟩
    rintro rfl; rfl
  simp only [Seen, OverSign, kelvin] at h hz
  rcases hz with ⟨k', hk', rfl | rfl⟩ | ⟨a', r', rfl⟩ | ⟨a', r', hr', rfl⟩ <;>
    rcases h with ⟨k, hk, h | h⟩ | ⟨a, r, h⟩ | ⟨a, r, hr, h⟩ <;>
    obtain ⟨h1, h2, h3⟩ := hl _ h <;>
    simp only [List.length_cons, List.length_nil] at h1 <;>
    first
      | omega
      | (simp at h2; omega)
      | skip
  have : y = [] := List.length_eq_zero_iff.1 (by omega)
  have := h3 this
  simp at this
  exact hc this.symm

theorem not_seen_nil : ¬ Seen [] := by
  rintro (⟨k, _, h | h⟩ | ⟨a, r, h⟩ | ⟨a, r, _, h⟩) <;> simp at h

theorem inked_mem {c : Rune} {g : Runes} (hc : c ∈ g) (hs : reSpace c = false) : c ∈ inked g := by
  simp [inked, hc, hs]

/-- the match of the expression -/
theorem withoutTrail_cases (s : Runes) : (withoutTrail s = s ∧ ∀ pre s', s = pre ++ s' → regexpTrail.run ⟨true && pre.isEmpty, s', []⟩ = []) ∨
    ∃ pre s', s = pre ++ s' ∧ withoutTrail s = pre ∧ EndMark s' := by
  unfold withoutTrail
  rcases hf : regexpTrail.find s with _ | ⟨n, t⟩
  · exact .inl ⟨rfl, Re.findFrom_none hf⟩
  · obtain ⟨pre, s', rfl, hn, h, _⟩ := Re.findFrom_some hf
    have hc := (Re.can_iff _ _ _ _).1 ⟨t, List.mem_of_mem_head? h, rfl, rfl⟩
    refine .inr ⟨pre, s', rfl, ?_, trail_mark hc⟩
    simp at hn
    subst hn
    simp

/-- with an end, the body is left, perhaps with blanks and an equal sign -/
theorem trail_marked {body z : Runes} (hz : EndMark z) (hlast : ∀ c ∈ body.getLast?, reSpace c = false ∧ c ≠ 61) :
    ∃ g, withoutTrail (body ++ z) = body ++ g ∧ ∀ c ∈ g, reSpace c = true ∨ c = 61 := by
  rcases withoutTrail_cases (body ++ z) with ⟨_, h⟩ | ⟨pre, s', e, hw, hm⟩
  · exfalso
    obtain ⟨g, z', rfl, hne⟩ := mark_trail hz (true && body.isEmpty)
    have := h (body ++ g) z' (by simp)
    apply hne
    rw [← this]
    cases body <;> cases g <;> rfl
  · rw [hw]
    rcases List.append_eq_append_iff.1 e with ⟨v, e1, e2⟩ | ⟨v, e1, e2⟩
    · refine ⟨v, e1, ?_⟩
      intro c hc
      rcases hs : reSpace c with _ | _
      · right
        refine seen_suffix (mark_seen hm) (mark_seen hz) (v := inked v) (by rw [e2, inked_append]) c (inked_mem hc hs)
      · exact .inl rfl
    · rcases List.eq_nil_or_concat v with rfl | ⟨y, x, rfl⟩
      · exact ⟨[], by simpa using e1.symm, by simp⟩
      · exfalso
        obtain ⟨h1, h2⟩ := hlast x (by rw [e1]; simp)
        have := mark_seen hm
        rw [e2, List.concat_eq_append, inked_append, inked_append, inked_cons h1] at this
        refine seen_longer (y := inked y) (mark_seen hz) h2 ?_
        simpa [inked] using this

theorem mark_strip {y z : Runes} (h : EndMark (y ++ z)) (hz : ∀ c ∈ z, Blank c) (hy : ∀ c ∈ y.getLast?, ¬ Blank c) (h0 : y ≠ []) : EndMark y := by
  have hcut : ∀ {p q : Runes} {k : Rune}, ¬ Blank k → (∀ c ∈ q, Blank c) → y ++ z = p ++ k :: q → y = p ++ [k] := by
    intro p q k hk hq e
    have e' : y ++ z = (p ++ [k]) ++ q := by simpa using e
    rcases List.append_eq_append_iff.1 e' with ⟨v, e1, e2⟩ | ⟨v, e1, e2⟩
    · rcases List.eq_nil_or_concat v with rfl | ⟨v', x, rfl⟩
      · simpa using e1.symm
      · exfalso
        have : x = k := by
          have := congrArg List.getLast? e1
          simpa using this.symm
        exact hk (this ▸ hz x (by rw [e2]; simp))
    · rcases List.eq_nil_or_concat v with rfl | ⟨v', x, rfl⟩
      · simpa using e1
      · exact absurd (hq x (by rw [e2]; simp)) (hy x (by rw [e1, List.concat_eq_append, ← List.append_assoc, List.getLast?_concat]; rfl))
  have nb : ∀ {k}, OverSign k → ¬ Blank k := by
    intro k hk hb
    have := over_not_space hk
    rw [(reSpace_iff k).2 hb] at this
    cases this
  have nr : ∀ {r : Rune}, (r = 82 ∨ r = 114) → ¬ Blank r := by
    intro r hr hb
    simp only [Blank] at hb
    omega
  generalize hs : y ++ z = s at h
  cases h with
  | @over g g2 k hg0 hg hk =>
    rw [hcut (nb hk) (fun c hc => hg c (by simp [hc])) hs]
    exact .over hg0 (fun c hc => hg c (by simp at hc ⊢; exact .inl hc)) hk
  | @equalOver g g1 g2 k hg hk =>
    have hs' : y ++ z = (g ++ 61 :: g1) ++ k :: g2 := by rw [hs]; simp
    rw [hcut (nb hk) (fun c hc => hg c (by simp [hc])) hs']
    have := EndMark.equalOver (g := g) (g1 := g1) (g2 := []) (k := k) (fun c hc => hg c (by simp at hc ⊢; rcases hc with h | h <;> simp [h])) hk
    simpa using this
  | @ar g g2 a r hg ha hr =>
    have hs' : y ++ z = (g ++ [91, a, r]) ++ 93 :: g2 := by rw [hs]; simp
    rw [hcut (by decide) (fun c hc => hg c (by simp [hc])) hs']
    have := EndMark.ar (g := g) (g2 := []) (a := a) (r := r) (fun c hc => hg c (by simp at hc ⊢; exact .inl hc)) ha hr
    simpa using this
  | @equalAr g g1 g2 a r hg ha hr =>
    have hs' : y ++ z = (g ++ 61 :: (g1 ++ [a])) ++ r :: g2 := by rw [hs]; simp
    rw [hcut (nr hr) (fun c hc => hg c (by simp [hc])) hs']
    have := EndMark.equalAr (g := g) (g1 := g1) (g2 := []) (a := a) (r := r)
      (fun c hc => hg c (by simp at hc ⊢; rcases hc with h | h <;> simp [h])) ha hr
    simpa using this

/-- without an end, everything is left -/
theorem trail_none {body z : Runes} (hz : ∀ c ∈ z, Blank c) (hlast : ∀ c ∈ body.getLast?, ¬ Blank c) (hno : ¬ ∃ x y, body = x ++ y ∧ EndMark y) :
    ∃ g, withoutTrail (body ++ z) = body ++ g ∧ ∀ c ∈ g, reSpace c = true ∨ c = 61 := by
  rcases withoutTrail_cases (body ++ z) with ⟨h, _⟩ | ⟨pre, s', e, hw, hm⟩
  · exact ⟨z, h, fun c hc => .inl ((reSpace_iff c).2 (hz c hc))⟩
  · exfalso
    rcases List.append_eq_append_iff.1 e with ⟨v, e1, e2⟩ | ⟨v, e1, e2⟩
    · have := mark_seen hm
      rw [inked_blanks (fun c hc => hz c (by rw [e2]; simp [hc]))] at this
      exact not_seen_nil this
    · rcases List.eq_nil_or_concat v with rfl | ⟨y, x, rfl⟩
      · have := mark_seen hm
        rw [e2, List.nil_append, inked_blanks hz] at this
        exact not_seen_nil this
      · rw [e2] at hm
        exact hno ⟨pre, _, e1, mark_strip hm hz (fun c hc => hlast c (by rw [e1]; simp at hc ⊢; exact hc)) (by simp)⟩

/-- The text that is stored is the body. -/
theorem closed_text {U : Unicode} (hU : U.Lawful) {text body : Runes} (hb : Closed U.isSpace text body) :
    trimRight (fun r => U.isSpace r || r == 43 || r == 61) (trimSpace U (withoutTrail (text.dropWhile reSpace))) = body := by
  have hspace : ∀ c, reSpace c = true → U.isSpace c = true := by
    intro c hc
    apply hU.isSpace_blank
    rw [reSpace_iff] at hc
    simp only [Blank] at hc
    simp; omega
  have hnsp : ∀ c, U.isSpace c = false → reSpace c = false := by
    intro c hc
    rcases hr : reSpace c with _ | _
    · rfl
    · rw [hspace c hr] at hc; cases hc
  obtain ⟨g, z, e, hg, hz⟩ := hb.layout
  have hd : text.dropWhile reSpace = body ++ z := by
    have e2 : text = g ++ (body ++ z) := by rw [e]; simp
    rw [e2]
    refine dropWhile_all (fun c hc => (reSpace_iff c).2 (hg c hc)) ?_
    intro c hc
    cases hbd : body with
    | nil => exact absurd hbd hb.some
    | cons x xs =>
      rw [hbd] at hc
      simp at hc
      subst hc
      exact hnsp x (hb.first x (by rw [hbd]; rfl))
  have hw : ∃ g, withoutTrail (body ++ z) = body ++ g ∧ ∀ c ∈ g, reSpace c = true ∨ c = 61 := by
    rcases hz with hz | ⟨hz, hno⟩
    · exact trail_marked hz (fun c hc => ⟨hnsp c (hb.last c hc).1, (hb.last c hc).2.1⟩)
    · refine trail_none hz ?_ hno
      intro c hc hbl
      have := hnsp c (hb.last c hc).1
      rw [(reSpace_iff c).2 hbl] at this
      cases this
  obtain ⟨g', hw, hg'⟩ := hw
  rw [hd, hw]
  have hfix : ∀ (p : Rune → Bool) (l : Runes), (∀ c ∈ l.head?, p c = false) → l.dropWhile p = l := by
    intro p l hl
    cases l with
    | nil => rfl
    | cons x xs => exact List.dropWhile_cons_of_neg (by simp [hl x (by simp)])
  have hhead : ∀ c ∈ (body ++ g').head?, U.isSpace c = false := by
    intro c hc
    cases hbd : body with
    | nil => exact absurd hbd hb.some
    | cons x xs =>
      rw [hbd] at hc
      simp at hc
      subst hc
      exact hb.first x (by rw [hbd]; rfl)
  -- what is left after trimming the end
  have ht : ∃ g2, trimSpace U (body ++ g') = body ++ g2 ∧ ∀ c ∈ g2, reSpace c = true ∨ c = 61 := by
    unfold trimSpace
    rw [hfix _ _ hhead]
    have hdrop : ∀ l : Runes, (l ++ body.reverse).dropWhile U.isSpace = l.dropWhile U.isSpace ++ body.reverse := by
      intro l
      induction l with
      | nil => exact hfix _ _ (by rw [List.nil_append, List.head?_reverse]; exact fun c hc => (hb.last c hc).1)
      | cons x xs ih =>
        by_cases hx : U.isSpace x = true
        · rw [List.cons_append, List.dropWhile_cons_of_pos hx, List.dropWhile_cons_of_pos hx, ih]
        · rw [List.cons_append, List.dropWhile_cons_of_neg hx, List.dropWhile_cons_of_neg hx]; rfl
    rw [List.reverse_append, hdrop]
    refine ⟨(g'.reverse.dropWhile U.isSpace).reverse, by simp, ?_⟩
    intro c hc
    refine hg' c ?_
    have := (List.dropWhile_suffix U.isSpace (l := g'.reverse)).subset (by simpa using hc)
    simpa using this
  obtain ⟨g2, ht, hg2⟩ := ht
  rw [ht]
  unfold trimRight
  rw [List.reverse_append, dropWhile_all]
  · simp
  · intro c hc
    rcases hg2 c (by simpa using hc) with h | rfl
    · simp [hspace c h]
    · simp
  · rw [List.head?_reverse]
    intro c hc
    obtain ⟨l1, l2, l3⟩ := hb.last c hc
    simp [l1, l2, l3]

end K431
