import Verif.TrafficMatch

/-! # Helper lemmas: removing the end sign -/

namespace K431
open Spec

/-- the first place where the expression matches -/
theorem Re.find_at {r : Re} : ∀ (pre s : Runes) (n : Nat) (b : Bool),
    (∀ p1 c p2, pre = p1 ++ c :: p2 → r.run ⟨b && p1.isEmpty, c :: p2 ++ s, []⟩ = []) →
    r.run ⟨b && pre.isEmpty, s, []⟩ ≠ [] → ∃ t, r.findFrom n b (pre ++ s) = some (n + pre.length, t) := by
  intro pre
  induction pre with
  | nil =>
    intro s n b _ h
    simp only [List.isEmpty_nil, Bool.and_true] at h
    rcases hr : r.run ⟨b, s, []⟩ with _ | ⟨t, ts⟩
    · exact absurd hr h
    · refine ⟨t, ?_⟩
      unfold Re.findFrom
      rw [List.nil_append, hr]
      rfl
  | cons c cs ih =>
    intro s n b h0 h
    have h1 := h0 [] c cs rfl
    simp only [List.isEmpty_nil, Bool.and_true] at h1
    unfold Re.findFrom
    rw [List.cons_append] at h1 ⊢
    rw [h1]
    simp only [List.head?_nil]
    have h2 : ∀ p1 c' p2, cs = p1 ++ c' :: p2 → r.run ⟨false && p1.isEmpty, c' :: p2 ++ s, []⟩ = [] := by
      intro p1 c' p2 e
      have := h0 (c :: p1) c' p2 (by rw [e]; rfl)
      simpa using this
    obtain ⟨t, ht⟩ := ih s (n + 1) false h2 (by simpa using h)
    exact ⟨t, by rw [ht]; simp only [List.length_cons, Nat.add_assoc, Nat.add_comm 1]⟩

/-- the characters that are not blank -/
def inked (s : Runes) : Runes := s.filter (fun c => !reSpace c)

theorem inked_append (x y : Runes) : inked (x ++ y) = inked x ++ inked y := by simp [inked]
theorem inked_blank {x : Runes} (h : ∀ c ∈ x, reSpace c = true) : inked x = [] := by
  unfold inked
  rw [List.filter_eq_nil_iff]
  intro c hc
  simp [h c hc]
theorem inked_cons {c : Rune} {x : Runes} (h : reSpace c = false) : inked (c :: x) = c :: inked x := by simp [inked, h]

theorem can_star {p : Rune → Bool} {b b' : Bool} {s s' : Runes} (h : (Re.star p).Can b s b' s') :
    ∃ w, s = w ++ s' ∧ ∀ c ∈ w, p c = true := by
  obtain ⟨w, e, hw, _⟩ := mem_starRun h
  exact ⟨w, e, hw⟩

/-- what the end sign is made of -/
theorem trail_inked {b b' : Bool} {s s' : Runes} (h : regexpTrail.Can b s b' s') :
    (∃ c, inked s = [61, c]) ∨ (∃ c, inked s = [c]) ∨ (∃ a r, inked s = [91, a, r, 93]) ∨
      ∃ a r, inked s = [61, a, r] ∧ (r = 82 ∨ r = 114) := by
  obtain ⟨b1, s1, h1, b2, s2, h2, h3⟩ := h
  obtain ⟨w3, rfl, hw3⟩ := can_star h2
  obtain ⟨h3, _, rfl⟩ := h3
  subst h3
  have hk : ∀ c, reKPlus c = true → reSpace c = false := by
    intro c hc
    simp [reKPlus, reLit] at hc
    simp [reSpace]; omega
  have hlit : ∀ u c, 65 ≤ u → u ≤ 90 → reLit u c = true → reSpace c = false := by
    intro u c h1 h2 hc
    simp [reLit] at hc
    simp [reSpace]; omega
  have heq : ∀ c, reEq c = true → c = 61 := by intro c hc; simpa [reEq] using hc
  have e61 : reSpace 61 = false := by decide
  have hA : reWord "AR" = .seq (.cls (reLit 65)) (.cls (reLit 82)) := rfl
  rcases h1 with h1 | h1 | h1 | h1
  · obtain ⟨_, _, h1, _, _, ⟨_, c, rfl, hc⟩, _, _, h4, _, k, rfl, hk1⟩ := h1
    obtain ⟨w1, rfl, hw1⟩ := can_star h1
    obtain ⟨w2, rfl, hw2⟩ := can_star h4
    rw [heq c hc]
    left
    refine ⟨k, ?_⟩
    rw [inked_append, inked_blank hw1, inked_cons e61, inked_append, inked_blank hw2, inked_cons (hk k hk1)]
    rw [List.append_nil, inked_blank hw3]
    rfl
  · obtain ⟨_, _, ⟨_, c, rfl, hc⟩, _, k, rfl, hk1⟩ := h1
    right; left
    refine ⟨k, ?_⟩
    have : inked (c :: k :: (w3 ++ [])) = inked (k :: (w3 ++ [])) := by simp [inked, hc]
    rw [this, inked_cons (hk k hk1), List.append_nil, inked_blank hw3]
  · obtain ⟨_, _, h1, _, _, ⟨_, c, rfl, hc⟩, _, _, h5, _, q, rfl, hq⟩ := h1
    rw [hA] at h5
    obtain ⟨_, _, ⟨_, a, rfl, ha⟩, _, r, rfl, hr⟩ := h5
    obtain ⟨w1, rfl, hw1⟩ := can_star h1
    have hc' : c = 91 := by simpa using hc
    have hq' : q = 93 := by simpa using hq
    subst hc' hq'
    right; right; left
    refine ⟨a, r, ?_⟩
    rw [inked_append, inked_blank hw1, inked_cons (by decide), inked_cons (hlit 65 a (by omega) (by omega) ha),
      inked_cons (hlit 82 r (by omega) (by omega) hr), inked_cons (by decide), List.append_nil, inked_blank hw3]
    rfl
  · obtain ⟨_, _, h1, _, _, ⟨_, c, rfl, hc⟩, _, _, h4, h5⟩ := h1
    rw [hA] at h5
    obtain ⟨_, _, ⟨_, a, rfl, ha⟩, _, r, rfl, hr⟩ := h5
    obtain ⟨w1, rfl, hw1⟩ := can_star h1
    obtain ⟨w2, rfl, hw2⟩ := can_star h4
    rw [heq c hc]
    right; right; right
    refine ⟨a, r, ?_, ?_⟩
    · rw [inked_append, inked_blank hw1, inked_cons e61, inked_append, inked_blank hw2,
        inked_cons (hlit 65 a (by omega) (by omega) ha), inked_cons (hlit 82 r (by omega) (by omega) hr), List.append_nil,
        inked_blank hw3]
      rfl
    · simp [reLit] at hr; omega

/-- The end sign ` = K` is removed, and nothing else. -/
theorem trail_removed {body g2 g3 g4 : Runes} {k : Rune} (hk : k = 75 ∨ k = 107 ∨ k = 43)
    (h2 : ∀ c ∈ g2, reSpace c = true) (h3 : ∀ c ∈ g3, reSpace c = true) (h4 : ∀ c ∈ g4, reSpace c = true)
    (hlast : ∀ c ∈ body.getLast?, reSpace c = false) :
    withoutTrail (body ++ (g2 ++ 61 :: g3 ++ k :: g4)) = body := by
  have hks : reSpace k = false := by rcases hk with rfl | rfl | rfl <;> decide
  have hend : inked (g2 ++ 61 :: g3 ++ k :: g4) = [61, k] := by
    rw [inked_append, inked_append, inked_blank h2, inked_cons (by decide), inked_blank h3, inked_cons hks, inked_blank h4]
    rfl
  have hno : ∀ p1 c p2, body = p1 ++ c :: p2 →
      regexpTrail.run ⟨true && p1.isEmpty, c :: p2 ++ (g2 ++ 61 :: g3 ++ k :: g4), []⟩ = [] := by
    intro p1 c p2 e
    apply Classical.byContradiction
    intro hne
    obtain ⟨b', s', hcan⟩ := run_nonempty.1 hne
    simp only at hcan
    have hz : ∃ y z, c :: p2 = y ++ [z] ∧ reSpace z = false := by
      rcases List.eq_nil_or_concat (c :: p2) with h | ⟨y, z, h⟩
      · cases h
      · refine ⟨y, z, by simpa using h, hlast z ?_⟩
        rw [e, h]
        simp
    obtain ⟨y, z, ez, hz⟩ := hz
    have hi : inked (c :: p2 ++ (g2 ++ 61 :: g3 ++ k :: g4)) = inked y ++ [z, 61, k] := by
      rw [inked_append, hend, ez, inked_append, inked_cons hz]
      simp [inked]
    have hlen := congrArg List.length hi
    have hl := congrArg List.getLast? hi
    simp only [List.length_append, List.length_cons, List.length_nil] at hlen
    rcases trail_inked hcan with ⟨q, h⟩ | ⟨q, h⟩ | ⟨a, r, h⟩ | ⟨a, r, h, hr⟩
    · rw [h] at hlen; simp at hlen
    · rw [h] at hlen; simp at hlen
    · rw [h] at hl; simp at hl; omega
    · rw [h] at hl; simp at hl; omega
  have hyes : regexpTrail.run ⟨true && body.isEmpty, g2 ++ 61 :: g3 ++ k :: g4, []⟩ ≠ [] := by
    rw [run_nonempty]
    refine ⟨false, [], ?_⟩
    have hst : ∀ (w s' : Runes) (b : Bool), (∀ c ∈ w, reSpace c = true) → ∃ b', reBlanks.Can b (w ++ s') b' s' := by
      intro w s' b hw
      exact ⟨_, starRun_all w s' b hw⟩
    obtain ⟨b1, c1⟩ := hst g2 (61 :: (g3 ++ k :: g4)) (true && body.isEmpty) h2
    obtain ⟨b2, c2⟩ := hst g3 (k :: g4) false h3
    have c3 : reBlanks.Can false g4 false [] := by
      have := starRun_all (p := reSpace) g4 [] false h4
      simp only [List.append_nil, Bool.false_and] at this
      exact this
    refine ⟨false, g4, .inl ⟨b1, 61 :: (g3 ++ k :: g4), by simpa using c1, false, g3 ++ k :: g4, ⟨rfl, 61, rfl, by decide⟩, b2,
      k :: g4, c2, rfl, k, rfl, ?_⟩, false, [], c3, rfl, rfl, rfl⟩
    rcases hk with rfl | rfl | rfl <;> decide
  obtain ⟨t, ht⟩ := Re.find_at (r := regexpTrail) body (g2 ++ 61 :: g3 ++ k :: g4) 0 true hno hyes
  unfold withoutTrail Re.find
  rw [ht]
  simp

end K431
