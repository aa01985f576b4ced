import Verif.SpecEntry
import Verif.FunLemmas
import Verif.PropsPfk
import Verif.RunLemmas
import Verif.PfkCmdLemmas
import Verif.HandCmdLemmas
import Mathlib.Data.List.TakeWhile

/-!
# Lemmas on what is entered on the command line and at the prompts
-/

namespace K431
open Spec

/-! ## File names -/

theorem extRev_iff (e : List Nat) (he : ∀ c ∈ e, c ≠ 46 ∧ c ≠ 47) : ∀ (s acc : List Nat),
    extRev s acc = 46 :: e ↔ ∃ a q, s = a ++ 46 :: q ∧ e = a.reverse ++ acc ∧ ∀ c ∈ a, c ≠ 46 ∧ c ≠ 47
  | [], acc => by simp [extRev]
  | c :: cs, acc => by
    unfold extRev
    by_cases h1 : c = 47
    · rw [if_pos h1]
      subst h1
      constructor
      · intro h; cases h
      · rintro ⟨a, q, e1, -, h3⟩
        rcases a with _ | ⟨x, a⟩
        · simp at e1
        · simp only [List.cons_append, List.cons.injEq] at e1
          exact absurd e1.1.symm (h3 x (by simp)).2
    rw [if_neg h1]
    by_cases h2 : c = 46
    · rw [if_pos h2]
      subst h2
      constructor
      · intro h
        simp only [List.cons.injEq, true_and] at h
        exact ⟨[], cs, rfl, by simp [h], by simp⟩
      · rintro ⟨a, q, e1, e2, h3⟩
        rcases a with _ | ⟨x, a⟩
        · simp only [e2]; rfl
        · simp only [List.cons_append, List.cons.injEq] at e1
          exact absurd e1.1.symm (h3 x (by simp)).1
    rw [if_neg h2, extRev_iff e he cs (c :: acc)]
    constructor
    · rintro ⟨a, q, rfl, e2, h3⟩
      refine ⟨c :: a, q, rfl, by simp [e2], ?_⟩
      intro x hx
      rcases List.mem_cons.1 hx with rfl | hx
      · exact ⟨h2, h1⟩
      · exact h3 x hx
    · rintro ⟨a, q, e1, e2, h3⟩
      rcases a with _ | ⟨x, a⟩
      · simp only [List.nil_append, List.cons.injEq] at e1
        exact absurd e1.1 h2
      · simp only [List.cons_append, List.cons.injEq] at e1
        obtain ⟨rfl, rfl⟩ := e1
        exact ⟨a, q, rfl, by simp [e2], fun y hy => h3 y (by simp [hy])⟩

/-- the extension of a file name -/
theorem pathExt_iff (file e : List Nat) (he : ∀ c ∈ e, c ≠ 46 ∧ c ≠ 47) : pathExt file = 46 :: e ↔ ∃ p, file = p ++ 46 :: e := by
  unfold pathExt
  rw [extRev_iff e he]
  constructor
  · rintro ⟨a, q, h1, h2, -⟩
    refine ⟨q.reverse, ?_⟩
    have := congrArg List.reverse h1
    simp only [List.reverse_reverse, List.reverse_append, List.reverse_cons, List.append_assoc] at this
    rw [this, h2]; simp
  · rintro ⟨p, rfl⟩
    refine ⟨e.reverse, p.reverse, by simp, by simp, ?_⟩
    intro c hc
    exact he c (by simpa using hc)

/-! ## Words -/

theorem splitAt1_ne (sep : Rune) : ∀ s : Runes, splitAt1 sep s ≠ []
  | [] => by simp [splitAt1]
  | c :: cs => by
    unfold splitAt1
    rcases splitAt1 sep cs with _ | ⟨p, ps⟩
    · simp
    · dsimp only; split <;> simp

theorem splitAt1_cons (sep c : Rune) (s : Runes) : ∃ p ps, splitAt1 sep s = p :: ps ∧ splitAt1 sep (c :: s) = if c = sep then [] :: p :: ps else (c :: p) :: ps := by
  rcases h : splitAt1 sep s with _ | ⟨p, ps⟩
  · exact absurd h (splitAt1_ne sep s)
  · refine ⟨p, ps, rfl, ?_⟩
    rw [splitAt1, h]

theorem splitAt1_snoc (sep c : Rune) : ∀ s : Runes, ∃ ini l, splitAt1 sep s = ini ++ [l] ∧
    splitAt1 sep (s ++ [c]) = if c = sep then ini ++ [l, []] else ini ++ [l ++ [c]]
  | [] => ⟨[], [], rfl, by simp only [List.nil_append, splitAt1]⟩
  | x :: s => by
    obtain ⟨ini, l, h1, h2⟩ := splitAt1_snoc sep c s
    rw [List.cons_append, splitAt1, splitAt1, h1, h2]
    rcases ini with _ | ⟨p, ini⟩
    · by_cases hx : x = sep <;> by_cases hc : c = sep
      · exact ⟨[[]], l, by simp [hx], by simp [hx, hc]⟩
      · exact ⟨[[]], l, by simp [hx], by simp [hx, hc]⟩
      · exact ⟨[], x :: l, by simp [hx], by simp [hx, hc]⟩
      · exact ⟨[], x :: l, by simp [hx], by simp [hx, hc]⟩
    · by_cases hx : x = sep <;> by_cases hc : c = sep
      · exact ⟨[] :: p :: ini, l, by simp [hx], by simp [hx, hc]⟩
      · exact ⟨[] :: p :: ini, l, by simp [hx], by simp [hx, hc]⟩
      · exact ⟨(x :: p) :: ini, l, by simp [hx], by simp [hx, hc]⟩
      · exact ⟨(x :: p) :: ini, l, by simp [hx], by simp [hx, hc]⟩

theorem trimSpace_cons {U : Unicode} {c : Rune} (h : U.isSpace c = true) (s : Runes) : trimSpace U (c :: s) = trimSpace U s := by
  unfold trimSpace
  rw [List.dropWhile_cons_of_pos h]

theorem trimSpace_snoc {U : Unicode} {c : Rune} (h : U.isSpace c = true) (s : Runes) : trimSpace U (s ++ [c]) = trimSpace U s := by
  unfold trimSpace
  rw [List.dropWhile_append]
  split
  · rename_i he
    simp only [List.isEmpty_iff] at he
    rw [he, List.dropWhile_cons_of_pos h]; rfl
  · rw [List.reverse_append, List.reverse_singleton, List.singleton_append, List.dropWhile_cons_of_pos h]

/-- the words of a part, trimmed, without empty ones -/
def trimmedWords (U : Unicode) (l : List Runes) : List Runes := (l.map (trimSpace U)).filter (fun t => decide (t.length > 0))

theorem trimmedWords_append (U : Unicode) (a b : List Runes) : trimmedWords U (a ++ b) = trimmedWords U a ++ trimmedWords U b := by
  simp [trimmedWords]

theorem trimmedWords_cons (U : Unicode) (w : Runes) (b : List Runes) : trimmedWords U (w :: b) = trimmedWords U [w] ++ trimmedWords U b :=
  trimmedWords_append U [w] b

theorem trimmedWords_nil (U : Unicode) : trimmedWords U [[]] = [] := rfl

theorem trimmedWords_one {U : Unicode} {v w : Runes} (h : trimSpace U v = trimSpace U w) : trimmedWords U [v] = trimmedWords U [w] := by
  simp [trimmedWords, h]

theorem words_front {U : Unicode} {c : Rune} (h : U.isSpace c = true) (s : Runes) : trimmedWords U (splitAt1 32 (c :: s)) = trimmedWords U (splitAt1 32 s) := by
  obtain ⟨p, ps, h1, h2⟩ := splitAt1_cons 32 c s
  rw [h1, h2]
  split
  · rw [trimmedWords_cons, trimmedWords_nil]; rfl
  · rw [trimmedWords_cons, trimmedWords_cons U p, trimmedWords_one (trimSpace_cons h p)]

theorem words_back {U : Unicode} {c : Rune} (h : U.isSpace c = true) (s : Runes) : trimmedWords U (splitAt1 32 (s ++ [c])) = trimmedWords U (splitAt1 32 s) := by
  obtain ⟨ini, l, h1, h2⟩ := splitAt1_snoc 32 c s
  rw [h1, h2]
  split
  · rw [show ini ++ [l, []] = (ini ++ [l]) ++ [[]] by simp, trimmedWords_append U _ [[]], trimmedWords_nil, List.append_nil]
  · rw [trimmedWords_append, trimmedWords_append, trimmedWords_one (trimSpace_snoc h l)]

theorem words_dropWhile (U : Unicode) (s : Runes) : trimmedWords U (splitAt1 32 (s.dropWhile U.isSpace)) = trimmedWords U (splitAt1 32 s) := by
  induction s with
  | nil => rfl
  | cons c s ih =>
    by_cases h : U.isSpace c = true
    · rw [List.dropWhile_cons_of_pos h, ih, words_front h]
    · rw [List.dropWhile_cons_of_neg h]

theorem words_dropEnd (U : Unicode) (s : Runes) : trimmedWords U (splitAt1 32 (s.dropWhile U.isSpace).reverse) = trimmedWords U (splitAt1 32 s.reverse) := by
  induction s with
  | nil => rfl
  | cons c s ih =>
    by_cases h : U.isSpace c = true
    · rw [List.dropWhile_cons_of_pos h, ih, List.reverse_cons, words_back h]
    · rw [List.dropWhile_cons_of_neg h]

/-- trimming a part does not change its words -/
theorem words_trim (U : Unicode) (s : Runes) : trimmedWords U (splitAt1 32 (trimSpace U s)) = trimmedWords U (splitAt1 32 s) := by
  unfold trimSpace
  rw [words_dropEnd, List.reverse_reverse, words_dropWhile]

/-- splitting at commas and then at blanks -/
def pieces (s : Runes) : List Runes := (splitAt1 44 s).flatMap (splitAt1 32)

theorem pieces_sep {c : Rune} (h : c = 44 ∨ c = 32) (s : Runes) : pieces (c :: s) = [] :: pieces s := by
  unfold pieces
  obtain ⟨p, ps, h1, h2⟩ := splitAt1_cons 44 c s
  rw [h1, h2]
  rcases h with rfl | rfl
  · rw [if_pos rfl]; rfl
  · rw [if_neg (by decide)]
    obtain ⟨q, qs, h3, h4⟩ := splitAt1_cons 32 32 p
    simp only [List.flatMap_cons]
    rw [h3, h4, if_pos rfl]; rfl

theorem pieces_cons {c : Rune} (h : c ≠ 44 ∧ c ≠ 32) (s : Runes) : ∃ p ps, pieces s = p :: ps ∧ pieces (c :: s) = (c :: p) :: ps := by
  unfold pieces
  obtain ⟨p, ps, h1, h2⟩ := splitAt1_cons 44 c s
  obtain ⟨q, qs, h3, h4⟩ := splitAt1_cons 32 c p
  rw [h1, h2, if_neg h.1]
  simp only [List.flatMap_cons]
  rw [h3, h4, if_neg h.2]
  exact ⟨q, qs ++ ps.flatMap (splitAt1 32), rfl, rfl⟩

theorem pieces_word : ∀ (w s : Runes), (∀ c ∈ w, c ≠ 44 ∧ c ≠ 32) → ∃ p ps, pieces s = p :: ps ∧ pieces (w ++ s) = (w ++ p) :: ps
  | [], s, _ => by
    rcases h : pieces s with _ | ⟨p, ps⟩
    · exfalso
      unfold pieces at h
      rcases h1 : splitAt1 44 s with _ | ⟨p, ps⟩
      · exact splitAt1_ne _ _ h1
      · rw [h1, List.flatMap_cons] at h
        exact splitAt1_ne 32 p (List.append_eq_nil_iff.1 h).1
    · exact ⟨p, ps, rfl, h⟩
  | c :: w, s, hw => by
    obtain ⟨p, ps, h1, h2⟩ := pieces_word w s (fun x hx => hw x (by simp [hx]))
    obtain ⟨q, qs, h3, h4⟩ := pieces_cons (hw c (by simp)) (w ++ s)
    rw [h2] at h3
    cases h3
    exact ⟨p, ps, h1, h4⟩

/-- the words found are those listed -/
theorem lists_pieces {U : Unicode} {s : Runes} {ws : List Runes} (h : Lists s ws) : trimmedWords U (pieces s) = trimmedWords U ws := by
  induction h with
  | nil => rfl
  | skip hc _ ih => rw [pieces_sep hc, trimmedWords_cons, trimmedWords_nil, List.nil_append, ih]
  | @word w s ws _ hw hs _ ih =>
    obtain ⟨p, ps, h1, h2⟩ := pieces_word w s hw
    rcases s with _ | ⟨c, s⟩
    · have hp : p = [] ∧ ps = [] := by
        have : K431.pieces [] = [[]] := rfl
        rw [this] at h1; cases h1; exact ⟨rfl, rfl⟩
      rw [h2, hp.1, hp.2, trimmedWords_cons U w ws, ← ih, List.append_nil, show K431.pieces [] = [[]] from rfl, trimmedWords_nil, List.append_nil]
    · rw [pieces_sep (hs c rfl)] at h1 ih
      cases h1
      rw [trimmedWords_cons, trimmedWords_nil, List.nil_append] at ih
      rw [h2, List.append_nil, trimmedWords_cons, ih, ← trimmedWords_cons]

theorem enteredKeepers_pieces (U : Unicode) (s : Runes) : enteredKeepers U s = (trimmedWords U (pieces s)).map (toUpperStr U) := by
  unfold enteredKeepers pieces
  induction splitAt1 44 s with
  | nil => rfl
  | cons a l ih =>
    simp only [List.flatMap_cons, List.filter_append, trimmedWords_append, List.map_append]
    rw [ih, ← words_trim U a]
    congr 1
    unfold trimmedWords
    induction splitAt1 32 (trimSpace U a) with
    | nil => rfl
    | cons b l ih =>
      simp only [List.map_cons, List.filter_cons, toUpperStr, List.length_map]
      simp only [toUpperStr] at ih
      split
      · rw [ih]; rfl
      · exact ih

/-- every text lists some words -/
theorem exists_lists : ∀ (n : Nat) (s : Runes), s.length ≤ n → ∃ ws, Lists s ws
  | _, [], _ => ⟨[], .nil⟩
  | 0, _ :: _, h => by simp at h
  | n + 1, c :: s, h => by
    by_cases hc : c = 44 ∨ c = 32
    · obtain ⟨ws, hw⟩ := exists_lists n s (by simpa using h)
      exact ⟨ws, .skip hc hw⟩
    · have hd := List.takeWhile_append_dropWhile (p := fun c : Int => decide (c ≠ 44 ∧ c ≠ 32)) (l := s)
      obtain ⟨ws, hw⟩ := exists_lists n (s.dropWhile (fun c : Int => decide (c ≠ 44 ∧ c ≠ 32)))
        (((List.dropWhile_suffix _).length_le).trans (by simpa using h))
      refine ⟨(c :: s.takeWhile (fun c : Int => decide (c ≠ 44 ∧ c ≠ 32))) :: ws, ?_⟩
      have := Lists.word (w := c :: s.takeWhile (fun c : Int => decide (c ≠ 44 ∧ c ≠ 32))) (by simp) (by
        intro x hx
        rcases List.mem_cons.1 hx with rfl | hx
        · exact not_or.1 hc
        · simpa using List.mem_takeWhile_imp hx) (by
        intro x hx
        have := List.head?_dropWhile_not (fun c : Int => decide (c ≠ 44 ∧ c ≠ 32)) s
        rw [hx] at this
        simp only [decide_eq_false_iff_not] at this
        by_contra hn
        exact this (not_or.1 hn)) hw
      rwa [List.cons_append, hd] at this

/-- `strings.FieldsFunc` finds the words listed -/
theorem lists_fields {s : Runes} {ws : List Runes} (h : Lists s ws) : fieldsFunc isSep s = ws := by
  have hsep : ∀ c : Int, c = 44 ∨ c = 32 → isSep c = true := by rintro c (rfl | rfl) <;> rfl
  induction h with
  | nil => rfl
  | skip hc _ ih =>
    unfold fieldsFunc
    rw [fieldsLoop, if_pos (hsep _ hc), if_pos rfl]
    exact ih
  | @word w s ws hne hw hs _ ih =>
    have hcl : fieldsLoop isSep w [] = [w] := by
      rw [fieldsLoop_clean isSep w [] (fun c hc => by
        have := hw c hc
        simp [isSep, this.1, this.2])]
      simp [hne]
    rcases s with _ | ⟨c, s⟩
    · rw [List.append_nil, ← ih]
      exact hcl
    · have hc := hsep c (hs c rfl)
      unfold fieldsFunc at ih ⊢
      rw [fieldsLoop_append isSep c hc s w [], hcl]
      rw [fieldsLoop, if_pos hc, if_pos rfl] at ih
      rw [ih]; rfl

theorem vetFields_eq (U : Unicode) : ∀ l : List Runes, vetFields (fun s => toUpperStr U (trimSpace U s)) l = (trimmedWords U l).map (toUpperStr U)
  | [] => rfl
  | w :: l => by
    rw [vetFields, vetFields_eq U l, trimmedWords_cons]
    unfold trimmedWords
    simp only [toUpperStr, List.length_map, List.map_cons, List.map_nil, List.filter_cons, List.filter_nil]
    by_cases h : (trimSpace U w).length > 0
    · rw [if_pos h, if_pos (by simpa using h)]; rfl
    · rw [if_neg h, if_neg (by simpa using h)]; rfl

/-- the names found at the prompt are those found on the command line -/
theorem entered_vetted (U : Unicode) (s : Runes) : enteredKeepers U s = vettedKeepers U [s] := by
  obtain ⟨ws, h⟩ := exists_lists s.length s (Nat.le_refl _)
  rw [enteredKeepers_pieces, lists_pieces h]
  simp only [vettedKeepers, List.flatMap_cons, List.flatMap_nil, List.append_nil, lists_fields h, vetFields_eq]

/-- generating keys depends on the names found only -/
theorem generateKeys_vetted {U : Unicode} {a b : List Runes} (h : vettedKeepers U a = vettedKeepers U b) (now : Nat → Int) (start n : Int)
    (expire : Option (Outcome Int)) (inst : Inst) (t : Tape) : generateKeys U now start n expire a inst t = generateKeys U now start n expire b inst t := by
  have hn : ∀ e now inst t, newKey U now e a inst t = newKey U now e b inst t := by
    intro e now inst t
    unfold newKey
    rw [h]
  have hl : ∀ e m inst t, generateLoop U now e a m inst t = generateLoop U now e b m inst t := by
    intro e m
    induction m with
    | zero => intro inst t; rfl
    | succ m ih =>
      intro inst t
      unfold generateLoop
      rw [hn]
      split
      · rfl
      · exact ih _ _
  unfold generateKeys
  simp only [hl]

end K431
