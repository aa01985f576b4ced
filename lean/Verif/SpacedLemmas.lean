import Verif.Traffic
import Verif.TrailLemmas
import Verif.PropsDecipher
import Verif.SummaryLemmas

/-! # Helper lemmas: words and spaces; the printed line of traffic -/

namespace K431
open Spec

theorem fieldsLoop_lead (f : Rune → Bool) : ∀ (lead s : Runes), (∀ c ∈ lead, f c = true) → fieldsLoop f (lead ++ s) [] = fieldsLoop f s [] := by
  intro lead
  induction lead with
  | nil => intro s _; rfl
  | cons x xs ih =>
    intro s h
    rw [List.cons_append, fieldsLoop, if_pos (h x (by simp)), if_pos rfl]
    exact ih s (fun c hc => h c (by simp [hc]))

theorem Spec.Spaced.fields {gap : Int → Prop} {f : Rune → Bool} (hf : ∀ c, gap c → f c = true) {ws : List Runes} {s : Runes}
    (h : Spaced gap ws s) (hw : ∀ w ∈ ws, ∀ c ∈ w, f c = false) : fieldsLoop f s [] = ws := by
  induction h with
  | nil => rfl
  | @cons w g s ws h0 _ hg hn _ ih =>
    have ih' := ih (fun v hv => hw v (by simp [hv]))
    have hc : fieldsLoop f w [] = [w] := by
      rw [fieldsLoop_clean f w [] (hw w (by simp))]
      simp [h0]
    cases g with
    | nil =>
      have hws : ws = [] := by
        cases ws with
        | nil => rfl
        | cons => exact absurd rfl (hn (by simp))
      subst hws
      rename_i hs
      cases hs
      simpa using hc
    | cons x xs =>
      have e : w ++ x :: xs ++ s = w ++ x :: (xs ++ s) := by simp
      rw [e, fieldsLoop_append f x (hf x (hg x (by simp))), hc, fieldsLoop_lead f xs s (fun c hc => hf c (hg c (by simp [hc]))), ih']
      rfl

theorem Spec.Spaced.word {gap : Int → Prop} {ws : List Runes} {s : Runes} (h : Spaced gap ws s) :
    ∀ w ∈ ws, w ≠ [] ∧ ∀ c ∈ w, ¬ Blank c := by
  induction h with
  | nil => simp
  | cons h0 hw _ _ _ ih =>
    intro v hv
    rcases List.mem_cons.1 hv with rfl | hv
    · exact ⟨h0, hw⟩
    · exact ih v hv

theorem Spec.Spaced.mono {gap gap' : Int → Prop} (hg : ∀ c, gap c → gap' c) {ws : List Runes} {s : Runes} (h : Spaced gap ws s) :
    Spaced gap' ws s := by
  induction h with
  | nil => exact .nil
  | cons h1 h2 h3 h4 _ ih => exact .cons h1 h2 (fun c hc => hg c (h3 c hc)) h4 ih

theorem Spec.InWords.mono {gap gap' : Int → Prop} (hg : ∀ c, gap c → gap' c) {ws : List Runes} {s : Runes} (h : InWords gap ws s) :
    InWords gap' ws s := by
  obtain ⟨lead, s', e, hl, hs⟩ := h
  exact ⟨lead, s', e, fun c hc => hg c (hl c hc), hs.mono hg⟩

theorem Spec.InWords.fields {gap : Int → Prop} {f : Rune → Bool} (hf : ∀ c, gap c → f c = true) {ws : List Runes} {s : Runes}
    (h : InWords gap ws s) (hw : ∀ w ∈ ws, ∀ c ∈ w, f c = false) : fieldsFunc f s = ws := by
  obtain ⟨lead, s', rfl, hl, hs⟩ := h
  unfold fieldsFunc
  rw [fieldsLoop_lead f lead s' (fun c hc => hf c (hl c hc))]
  exact hs.fields hf hw

/-- the words of a text are determined -/
theorem Spec.InWords.unique {ws ws' : List Runes} {s : Runes} (h : InWords (· = 32) ws s) (h' : InWords (· = 32) ws' s) : ws = ws' := by
  have key : ∀ {vs : List Runes}, InWords (· = 32) vs s → fieldsFunc (fun c => c == 32) s = vs := by
    intro vs hv
    obtain ⟨lead, s', rfl, hl, hs⟩ := hv
    refine InWords.fields (gap := (· = 32)) (by simp) ⟨lead, s', rfl, hl, hs⟩ ?_
    intro w hw c hc
    have := (hs.word w hw).2 c hc
    simp only [beq_eq_false_iff_ne]
    rintro rfl
    exact this (by decide)
  rw [← key h, key h']

theorem Spec.Spaced.split {gap : Int → Prop} : ∀ {ws1 ws2 : List Runes} {s : Runes}, Spaced gap (ws1 ++ ws2) s →
    ∃ p q, s = p ++ q ∧ Spaced gap ws1 p ∧ Spaced gap ws2 q := by
  intro ws1
  induction ws1 with
  | nil => intro ws2 s h; exact ⟨[], s, rfl, .nil, h⟩
  | cons w ws1 ih =>
    intro ws2 s h
    cases h with
    | @cons _ g s _ h0 hw hg hn h1 =>
      obtain ⟨p, q, rfl, hp, hq⟩ := ih h1
      refine ⟨w ++ g ++ p, q, by simp, .cons h0 hw hg ?_ hp, hq⟩
      intro he
      exact hn (by simp [he])

theorem Spec.Spaced.laid {ws : List Runes} {s : Runes} (h : Spaced (· = 32) ws s) (hw : ∀ w ∈ ws, ∀ c ∈ w, CallChar c) : Laid ws s := by
  induction h with
  | nil => exact .nil
  | cons h0 _ hg hn _ ih => exact .cons h0 (hw _ (by simp)) hg hn (ih (fun v hv => hw v (by simp [hv])))

/-- words of letters: the text without the gap at its end -/
theorem Spec.Spaced.body {ws : List Runes} {s : Runes} (h : Spaced (· = 32) ws s) (hl : ∀ w ∈ ws, ∀ c ∈ w, IsLetter c) (hne : ws ≠ []) :
    ∃ body g, s = body ++ g ∧ (∀ c ∈ g, c = 32) ∧ body ≠ [] ∧ (∀ c ∈ body.head?, IsLetter c) ∧ (∀ c ∈ body.getLast?, IsLetter c) ∧
      (∀ c ∈ body, IsLetter c ∨ c = 32) ∧ body.filter (fun c => c != 32) = ws.flatten := by
  induction h with
  | nil => exact absurd rfl hne
  | @cons w g s ws h0 _ hg hn h1 ih =>
    have hwl := hl w (by simp)
    have hh : ∀ y : Runes, ∀ c ∈ (w ++ y).head?, IsLetter c := by
      intro y c hc
      cases w with
      | nil => exact absurd rfl h0
      | cons x xs => simp at hc; subst hc; exact hwl x (by simp)
    have hfw : w.filter (fun c => c != 32) = w := by
      apply List.filter_eq_self.2
      intro c hc
      have := hwl c hc
      unfold IsLetter at this
      simp; omega
    by_cases hws : ws = []
    · subst hws
      cases h1
      refine ⟨w, g, by simp, hg, h0, by simpa using hh [], fun c hc => hwl c (List.mem_of_mem_getLast? hc), fun c hc => .inl (hwl c hc), ?_⟩
      simpa using hfw
    · obtain ⟨body, g', rfl, hg', hb0, _, hb2, hb3, hb4⟩ := ih (fun v hv => hl v (by simp [hv])) hws
      refine ⟨w ++ (g ++ body), g', by simp, hg', by simp [h0], hh _, ?_, ?_, ?_⟩
      · intro c hc
        rw [List.getLast?_append, List.getLast?_append] at hc
        cases hb : body.getLast? with
        | none => exact absurd (List.getLast?_eq_none_iff.1 hb) hb0
        | some z =>
          rw [hb] at hc
          simp at hc
          subst hc
          exact hb2 z (by rw [hb]; rfl)
      · intro c hc
        simp only [List.mem_append] at hc
        rcases hc with hc | hc | hc
        · exact .inl (hwl c hc)
        · exact .inr (hg c hc)
        · exact hb3 c hc
      · have hgf : g.filter (fun c => c != 32) = [] := by
          apply List.filter_eq_nil_iff.2
          intro c hc
          simp [hg c hc]
        rw [List.filter_append, List.filter_append, hfw, hgf, hb4]
        simp

theorem digit_capital {c : Int} (h : 48 ≤ c ∧ c ≤ 57) : CapitalCallChar c := .inr (.inl h)

theorem capital_call {c : Int} (h : CapitalCallChar c) : CallChar c := by
  unfold CapitalCallChar at h
  unfold CallChar
  omega

theorem capital_not_blank {c : Int} (h : CapitalCallChar c) : ¬ Blank c := by
  unfold CapitalCallChar at h
  unfold Blank
  omega

theorem letter_capital {c : Int} (h : IsLetter c) : CapitalCallChar c := .inl h

theorem decimal_digits (n : Nat) : decimal n ≠ [] ∧ (∀ c ∈ decimal n, 48 ≤ c ∧ c ≤ 57) ∧ (n < 10000 ↔ (decimal n).length ≤ 4) := by
  refine ⟨?_, ?_, ?_⟩
  · simp [decimal, Nat.toDigits_ne_nil]
  · intro c hc
    obtain ⟨d, hd, rfl⟩ := List.mem_map.1 hc
    have := Nat.isDigit_of_mem_toDigits (by decide) (by decide) hd
    simp only [Char.isDigit, Bool.and_eq_true, decide_eq_true_eq] at this
    obtain ⟨h1, h2⟩ := this
    have h1' : 48 ≤ d.toNat := h1
    have h2' : d.toNat ≤ 57 := h2
    omega
  · simp only [decimal, List.length_map]
    rw [Nat.length_toDigits_le_iff (by decide) (by decide)]

theorem capital_upper {U : Unicode} (hU : U.Lawful) {c : Int} (h : CapitalCallChar c) : U.toUpper c = c := by
  unfold CapitalCallChar at h
  rcases h with h | h | h
  · have hm : c ∈ capitals := by
      have : ∀ n : Fin 26, (65 + (n.val : Int)) ∈ capitals := by decide
      have := this ⟨(c - 65).toNat, by omega⟩
      simp only at this
      rwa [show (65 + (((c - 65).toNat : Nat) : Int)) = c from by omega] at this
    exact (hU.capital c hm).2.2.1
  · have hm : c ∈ neutrals := by
      have : ∀ n : Fin 10, (48 + (n.val : Int)) ∈ neutrals := by decide
      have := this ⟨(c - 48).toNat, by omega⟩
      simp only at this
      rwa [show (48 + (((c - 48).toNat : Nat) : Int)) = c from by omega] at this
    exact (hU.neutral c hm).2.2.1
  · subst h
    exact (hU.neutral 47 (by decide)).2.2.1

theorem capital_not_space {U : Unicode} (hU : U.Lawful) {c : Int} (h : CapitalCallChar c) : U.isSpace c = false :=
  (call_up hU ((reCall_iff c).2 (.inl (capital_call h)))).1

theorem capital_valid {c : Int} (h : CapitalCallChar c) : validRune c = true := by
  unfold CapitalCallChar at h
  unfold validRune
  simp; omega

theorem goStr_capital {w : Runes} (h : ∀ c ∈ w, CapitalCallChar c) : goStr w = w := goStr_valid (fun c hc => capital_valid (h c hc))

theorem map_capital {U : Unicode} (hU : U.Lawful) {w : Runes} (h : ∀ c ∈ w, CapitalCallChar c) : w.map U.toUpper = w := by
  conv => rhs; rw [← List.map_id w]
  exact List.map_congr_left (fun c hc => capital_upper hU (h c hc))

theorem joinRunes_capital {sep : Runes} : ∀ {l : List Runes}, (∀ w ∈ l, ∀ c ∈ w, CapitalCallChar c) → joinRunes sep l = joinWith sep l := by
  intro l
  induction l with
  | nil => intro _; rfl
  | cons w l ih =>
    intro h
    cases l with
    | nil => exact goStr_capital (h w (by simp))
    | cons v l =>
      rw [joinRunes, joinWith_cons _ _ _ (by simp), goStr_capital (h w (by simp)), ih (fun x hx => h x (by simp [hx]))]
      simp

theorem joinWith_append {sep : Runes} : ∀ {a b : List Runes}, a ≠ [] → b ≠ [] → joinWith sep (a ++ b) = joinWith sep a ++ sep ++ joinWith sep b := by
  intro a
  induction a with
  | nil => intro b h; exact absurd rfl h
  | cons x a ih =>
    intro b _ hb
    cases a with
    | nil => rw [List.cons_append, List.nil_append, joinWith_cons _ _ _ hb]; rfl
    | cons y a =>
      rw [List.cons_append, joinWith_cons _ _ _ (by simp), ih (by simp) hb, joinWith_cons _ x _ (by simp)]
      simp

theorem joinWith_mem {sep : Runes} : ∀ {l : List Runes} {c : Rune}, c ∈ joinWith sep l → (∃ w ∈ l, c ∈ w) ∨ c ∈ sep := by
  intro l
  induction l with
  | nil => intro c h; cases h
  | cons w l ih =>
    intro c h
    cases l with
    | nil => exact .inl ⟨w, by simp, h⟩
    | cons v l =>
      rw [joinWith_cons _ _ _ (by simp)] at h
      simp only [List.mem_append] at h
      rcases h with (h | h) | h
      · exact .inl ⟨w, by simp, h⟩
      · exact .inr h
      · rcases ih h with ⟨x, hx, hc⟩ | h
        · exact .inl ⟨x, by simp [hx], hc⟩
        · exact .inr h

theorem spaced_join : ∀ {ws : List Runes}, (∀ w ∈ ws, w ≠ [] ∧ ∀ c ∈ w, ¬ Blank c) → Spaced (· = 32) ws (joinWith [32] ws) := by
  intro ws
  induction ws with
  | nil => intro _; exact .nil
  | cons w ws ih =>
    intro h
    have ih' := ih (fun v hv => h v (by simp [hv]))
    obtain ⟨h0, h1⟩ := h w (by simp)
    cases ws with
    | nil =>
      have := Spaced.cons (gap := (· = 32)) (g := []) h0 h1 (by simp) (by simp) .nil
      simpa [joinWith] using this
    | cons v ws =>
      rw [joinWith_cons _ _ _ (by simp)]
      exact .cons h0 h1 (by simp) (by simp) ih'

theorem Whole.count {gs : Int} : ∀ {l : List Runes}, Whole gs l → l ≠ [] →
    ((l.length : Int) - 1) * gs + 1 ≤ l.flatten.length ∧ (l.flatten.length : Int) ≤ l.length * gs := by
  intro l
  induction l with
  | nil => intro _ h; exact absurd rfl h
  | cons g l ih =>
    intro h _
    obtain ⟨h0, h1, h2⟩ := h 0 g (by simp)
    have hg0 : 1 ≤ (g.length : Int) := by have := List.length_pos_iff.2 h0; omega
    cases l with
    | nil => simp; omega
    | cons v l =>
      have ht : Whole gs (v :: l) := by
        intro n x hn
        have := h (n + 1) x (by simpa using hn)
        refine ⟨this.1, this.2.1, fun hlt => this.2.2 (by simp at hlt ⊢; omega)⟩
      have ih' := ih ht (by simp)
      have hx := h2 (by simp)
      rw [List.flatten_cons, List.length_append, List.length_cons]
      push_cast
      have e : (((v :: l).length : Int) + 1 - 1) * gs = ((v :: l).length - 1) * gs + gs := by
        rw [show (((v :: l).length : Int) + 1 - 1) = ((v :: l).length - 1) + 1 from by omega, Int.add_mul]; omega
      have e2 : (((v :: l).length : Int) + 1) * gs = (v :: l).length * gs + gs := by rw [Int.add_mul]; omega
      omega

/-- what is printed for the ciphertext: the key id and the groups, with one space between them -/
theorem keyAndGroups_eq {lb : Runes} {groupSize : Nat} {m : Msg} (hg : groupSize ≠ 0) (hk : ∀ c ∈ m.keyId.val, IsLetter c)
    (hc : ∀ c ∈ m.cipherText, IsLetter c) (hne : m.cipherText ≠ []) :
    ∃ gs : List Runes, keyAndGroups lb groupSize m = m.keyId.val ++ [32] ++ joinWith [32] gs ∧ gs ≠ [] ∧ gs.flatten = m.cipherText ∧
      (∀ g ∈ gs, (g ≠ [] ∧ ∀ c ∈ g, IsLetter c) ∧ g.length ≤ groupSize) ∧ ((gs.length : Int) - 1) * groupSize + 1 ≤ m.cipherText.length ∧
      m.cipherText.length ≤ gs.length * groupSize ∧ Whole groupSize gs := by
  obtain ⟨lines, out, h1, h2, h3, h4, h5, h6, _⟩ := (C32_grouping lb m.cipherText groupSize 0).1 (by omega)
  have hl := h6 (by omega)
  obtain ⟨line, rfl⟩ : ∃ line, lines = [line] := by
    match lines, hl with
    | [], _ => simp at h3; exact absurd h3 hne
    | [x], _ => exact ⟨x, rfl⟩
  simp only [List.flatten_cons, List.flatten_nil, List.append_nil] at h3 h4
  have hln : line ≠ [] := h5 line (by simp)
  have hlet : ∀ g ∈ line, (g ≠ [] ∧ ∀ c ∈ g, IsLetter c) ∧ g.length ≤ groupSize := by
    intro g hgm
    obtain ⟨n, hn⟩ := List.mem_iff_getElem?.1 hgm
    refine ⟨⟨(h4 n g hn).1, fun c hcm => hc c ?_⟩, by have := (h4 n g hn).2.1; omega⟩
    rw [← h3]
    exact List.mem_flatten.2 ⟨g, hgm, hcm⟩
  have hout : out = joinWith [32] line := by rw [h2]; simp [joinWith]
  have hvalid : ∀ c ∈ out, validRune c = true := by
    intro c hcm
    rw [hout] at hcm
    rcases joinWith_mem hcm with ⟨g, hgm, hcg⟩ | h
    · exact capital_valid (letter_capital ((hlet g hgm).1.2 c hcg))
    · simp at h; subst h; decide
  have hout0 : out.length > 0 := by
    rw [hout]
    cases line with
    | nil => exact absurd rfl hln
    | cons g gs =>
      have := (hlet g (by simp)).1.1
      cases g with
      | nil => exact absurd rfl this
      | cons x xs => rw [joinWith_head]; simp
  have hcount := h4.count hln
  rw [h3] at hcount
  refine ⟨line, ?_, hln, h3, hlet, hcount.1, by have := hcount.2; exact_mod_cast this, h4⟩
  unfold keyAndGroups
  simp only [h1]
  rw [if_pos hout0, goStr_letters hk, goStr_valid hvalid, hout]

theorem keyAndGroups_words {lb : Runes} {groupSize : Nat} {m : Msg} {gs : List Runes} (hk0 : m.keyId.val ≠ [])
    (hk : ∀ c ∈ m.keyId.val, IsLetter c) (hgs : ∀ g ∈ gs, g ≠ [] ∧ ∀ c ∈ g, IsLetter c) (hgs0 : gs ≠ [])
    (he : keyAndGroups lb groupSize m = m.keyId.val ++ [32] ++ joinWith [32] gs) :
    InWords (· = 32) (m.keyId.val :: gs) (keyAndGroups lb groupSize m) := by
  rw [he, ← joinWith_cons _ _ _ hgs0]
  refine ⟨[], _, (List.nil_append _).symm, by simp, ?_⟩
  refine spaced_join ?_
  intro w hw
  rcases List.mem_cons.1 hw with rfl | hw
  · exact ⟨hk0, fun c hc => capital_not_blank (letter_capital (hk c hc))⟩
  · exact ⟨(hgs w hw).1, fun c hc => capital_not_blank (letter_capital ((hgs w hw).2 c hc))⟩

/-- the words of the printed line of traffic -/
def trafficWords (P : PrintEnv) (m : Msg) (gs : List Runes) : List Runes :=
  m.recipients ++ (lit "DE" :: m.from_ :: P.date m.dtg :: decimal (gs.length + 1) :: [61] :: ((m.keyId.val :: gs) ++ [[61], [75]]))

theorem trafficLine_words {U : Unicode} (hU : U.Lawful) {P : PrintEnv} {groupSize : Nat} {m : Msg} {gs : List Runes}
    (hwrap : ∀ ws s, InWords (· = 32) ws s → InWords Blank ws (P.wrap s))
    (hk0 : m.keyId.val ≠ []) (hk : ∀ c ∈ m.keyId.val, IsLetter c)
    (hr : ∀ r ∈ m.recipients, r ≠ [] ∧ ∀ c ∈ r, CapitalCallChar c) (hf : m.from_ ≠ [] ∧ ∀ c ∈ m.from_, CapitalCallChar c)
    (hd : P.date m.dtg ≠ [] ∧ ∀ c ∈ P.date m.dtg, CapitalCallChar c)
    (hgs : ∀ g ∈ gs, g ≠ [] ∧ ∀ c ∈ g, IsLetter c) (hgs0 : gs ≠ [])
    (he : keyAndGroups P.lb groupSize m = m.keyId.val ++ [32] ++ joinWith [32] gs) :
    trafficLine U P groupSize m = joinWith [32] (trafficWords P m gs) ∧ Spaced (· = 32) (trafficWords P m gs) (trafficLine U P groupSize m) := by
  have hkw : InWords (· = 32) (m.keyId.val :: gs) (keyAndGroups P.lb groupSize m) := keyAndGroups_words hk0 hk hgs hgs0 he
  have hcount : fieldsFunc U.isSpace (P.wrap (keyAndGroups P.lb groupSize m)) = m.keyId.val :: gs := by
    refine InWords.fields (gap := Blank) ?_ (hwrap _ _ hkw) ?_
    · intro c hc
      apply hU.isSpace_blank
      simp only [Blank] at hc
      simp; omega
    · intro w hw c hc
      rcases List.mem_cons.1 hw with rfl | hw
      · exact capital_not_space hU (letter_capital (hk c hc))
      · exact capital_not_space hU (letter_capital ((hgs w hw).2 c hc))
  have hwords : ∀ w ∈ trafficWords P m gs, w ≠ [] ∧ ∀ c ∈ w, ¬ Blank c := by
    have hcap : ∀ {w : Runes}, w ≠ [] → (∀ c ∈ w, CapitalCallChar c) → w ≠ [] ∧ ∀ c ∈ w, ¬ Blank c :=
      fun h0 h => ⟨h0, fun c hc => capital_not_blank (h c hc)⟩
    intro w hw
    simp only [trafficWords, List.mem_append, List.mem_cons, List.not_mem_nil, or_false] at hw
    rcases hw with hw | rfl | rfl | rfl | rfl | rfl | (rfl | hw) | rfl | rfl
    · exact hcap (hr w hw).1 (hr w hw).2
    · decide
    · exact hcap hf.1 hf.2
    · exact hcap hd.1 hd.2
    · exact hcap (decimal_digits _).1 (fun c hc => digit_capital ((decimal_digits _).2.1 c hc))
    · decide
    · exact hcap hk0 (fun c hc => letter_capital (hk c hc))
    · exact hcap (hgs w hw).1 (fun c hc => letter_capital ((hgs w hw).2 c hc))
    · decide
    · decide
  have hline : trafficLine U P groupSize m = joinWith [32] (trafficWords P m gs) := by
    have htail : joinWith [32] (lit "DE" :: m.from_ :: P.date m.dtg :: decimal (gs.length + 1) :: [61] :: ((m.keyId.val :: gs) ++ [[61], [75]])) =
        lit "DE " ++ m.from_ ++ [32] ++ P.date m.dtg ++ [32] ++ decimal (gs.length + 1) ++ lit " = " ++ keyAndGroups P.lb groupSize m ++
          lit " = K" := by
      have e1 : lit "DE " = lit "DE" ++ [32] := by decide
      have e2 : lit " = " = [32] ++ [61] ++ [32] := by decide
      have e3 : lit " = K" = [32] ++ ([61] ++ [32] ++ [75]) := by decide
      rw [e1, e2, e3, joinWith_cons _ _ _ (by simp), joinWith_cons _ _ _ (by simp), joinWith_cons _ _ _ (by simp),
        joinWith_cons _ _ _ (by simp), joinWith_cons _ _ _ (by simp), joinWith_append (by simp) (by simp), he,
        joinWith_cons _ m.keyId.val _ hgs0]
      simp [joinWith]
    have htrim : ∀ x y : Runes, (∀ c ∈ x, U.isSpace c = true) → (∀ c ∈ y.head?, U.isSpace c = false) →
        (∀ c ∈ y.getLast?, U.isSpace c = false) → trimSpace U (x ++ y) = y := by
      intro x y hx hy1 hy2
      unfold trimSpace
      have h1 : (x ++ y).dropWhile U.isSpace = y := dropWhile_all hx hy1
      rw [h1]
      have h2 : y.reverse.dropWhile U.isSpace = y.reverse := by
        have := dropWhile_all (p := U.isSpace) (x := []) (y := y.reverse) (by simp) (by rw [List.head?_reverse]; exact hy2)
        simpa using this
      rw [h2, List.reverse_reverse]
    have hhead : ∀ c ∈ (joinWith [32] (trafficWords P m gs)).head?, U.isSpace c = false := by
      intro c hc
      unfold trafficWords at hc
      cases hrm : m.recipients with
      | nil =>
        rw [hrm, List.nil_append, htail] at hc
        have e : lit "DE " = 68 :: lit "E " := by decide
        rw [e] at hc
        simp at hc
        subst hc
        exact capital_not_space hU (by decide)
      | cons r rs =>
        obtain ⟨h0, h1⟩ := hr r (by rw [hrm]; simp)
        cases r with
        | nil => exact absurd rfl h0
        | cons x xs =>
          rw [hrm, List.cons_append, joinWith_head] at hc
          simp at hc
          subst hc
          exact capital_not_space hU (h1 x (by simp))
    have hlast : ∀ c ∈ (joinWith [32] (trafficWords P m gs)).getLast?, U.isSpace c = false := by
      intro c hc
      have e : trafficWords P m gs = (m.recipients ++ (lit "DE" :: m.from_ :: P.date m.dtg :: decimal (gs.length + 1) :: [61] ::
          ((m.keyId.val :: gs) ++ [[61]]))) ++ [[75]] := by simp [trafficWords]
      rw [e, joinWith_append (by simp) (by simp)] at hc
      have : joinWith [32] [[(75 : Int)]] = [75] := rfl
      rw [this] at hc
      simp at hc
      subst hc
      exact capital_not_space hU (by decide)
    unfold trafficLine
    simp only [hcount, List.length_cons]
    rw [goStr_capital hf.2]
    by_cases hrm : m.recipients = []
    · have e : joinWith [32] (trafficWords P m gs) = joinWith [32] (lit "DE" :: m.from_ :: P.date m.dtg :: decimal (gs.length + 1) :: [61] ::
          ((m.keyId.val :: gs) ++ [[61], [75]])) := by simp [trafficWords, hrm]
      have := htrim [32] (joinWith [32] (trafficWords P m gs)) (by intro c hc; simp at hc; subst hc; exact hU.isSpace_blank 32 (by simp))
        hhead hlast
      rw [← this]
      congr 1
      rw [e, htail, hrm]
      have e1 : lit " DE " = [32] ++ lit "DE " := by decide
      rw [e1]
      simp [joinRunes]
    · have := htrim [] (joinWith [32] (trafficWords P m gs)) (by simp) hhead hlast
      rw [← this]
      congr 1
      unfold trafficWords
      rw [joinWith_append hrm (by simp), htail, joinRunes_capital (fun w hw => (hr w hw).2)]
      have e1 : lit " DE " = [32] ++ lit "DE " := by decide
      rw [e1]
      simp
  rw [hline]
  exact ⟨rfl, spaced_join hwords⟩

/-- entering the words of the printed line: the parts of the radiogram -/
theorem traffic_form {U : Unicode} (hU : U.Lawful) {P : PrintEnv} {m : Msg} {gs : List Runes} {s : Runes}
    (hk : ∀ c ∈ m.keyId.val, IsLetter c) (hr : ∀ r ∈ m.recipients, Station r) (hf : Station m.from_) (hd : PrintedTime (P.date m.dtg))
    (hgs : ∀ g ∈ gs, g ≠ [] ∧ ∀ c ∈ g, IsLetter c) (hn : gs.length + 1 < 10000)
    (h : InWords (· = 32) (trafficWords P m gs) s) :
    ∃ text body, ShortForm s m.recipients m.from_ (some (P.date m.dtg)) none (some (decimal (gs.length + 1))) text ∧
      Ended U.isSpace text body ∧ LettersOf U body (m.keyId.val ++ gs.flatten) := by
  obtain ⟨lead, s', rfl, hlead, hs⟩ := h
  have e : trafficWords P m gs = (m.recipients ++ lit "DE" :: m.from_ :: P.date m.dtg :: [decimal (gs.length + 1)]) ++
      ([61] :: ((m.keyId.val :: gs) ++ [[61], [75]])) := by simp [trafficWords]
  rw [e] at hs
  obtain ⟨p, q, rfl, hp, hq⟩ := hs.split
  cases hq with
  | @cons _ g1 q1 _ _ _ hg1 hn1 hq1 =>
  obtain ⟨q2, q3, rfl, hq2, hq3⟩ := hq1.split
  cases hq3 with
  | @cons _ g3 q4 _ _ _ hg3 hn3 hq4 =>
  cases hq4 with
  | @cons _ g4 q5 _ _ _ hg4 _ hq5 =>
  cases hq5
  have hletters : ∀ w ∈ m.keyId.val :: gs, ∀ c ∈ w, IsLetter c := by
    intro w hw
    rcases List.mem_cons.1 hw with rfl | hw
    · exact hk
    · exact (hgs w hw).2
  obtain ⟨body, g2, rfl, hg2, hb0, hb1, hb2, hb3, hb4⟩ := hq2.body hletters (by simp)
  obtain ⟨hdt, hdc⟩ := hd
  have hlaid : Laid (m.recipients ++ lit "DE" :: m.from_ :: P.date m.dtg :: [decimal (gs.length + 1)]) p := by
    refine hp.laid ?_
    intro w hw c hc
    simp only [List.mem_append, List.mem_cons, List.not_mem_nil, or_false] at hw
    rcases hw with hw | rfl | rfl | rfl | rfl
    · exact capital_call ((hr w hw).2.1 c hc)
    · have : ∀ c ∈ lit "DE", CallChar c := by decide
      exact this c hc
    · exact capital_call (hf.2.1 c hc)
    · exact capital_call (hdc c hc)
    · exact capital_call (digit_capital ((decimal_digits _).2.1 c hc))
  have hle : ∀ c, IsLetter c → c ≠ 61 := by intro c hc; unfold IsLetter at hc; omega
  have hl10 : ∀ c, IsLetter c → c ≠ 10 := by intro c hc; unfold IsLetter at hc; omega
  have hb61 : 61 ∉ body := fun hm => by
    rcases hb3 61 hm with h | h
    · exact hle 61 h rfl
    · exact absurd h (by decide)
  have hsp61 : ∀ g : Runes, (∀ c ∈ g, c = 32) → (61 : Int) ∉ g := fun g hg hm => absurd (hg 61 hm) (by decide)
  have hp61 : (61 : Int) ∉ p := fun hm => by
    rcases hlaid.chars 61 hm with h | h
    · exact absurd h (by decide)
    · exact absurd h (by decide)
  have hhd : ∀ (g r : Runes), (∀ c ∈ g, c = 32) → (∀ c ∈ r.head?, c ≠ 61) → ∀ c ∈ (g ++ r).head?, c ≠ 61 := by
    intro g r hg hr c hc
    cases g with
    | nil => exact hr c hc
    | cons x xs =>
      simp at hc
      subst hc
      rw [hg x (by simp)]
      decide
  have hend : ¬ ∃ x y, g3 ++ [75] ++ g4 = x ++ 61 :: 61 :: y := by
    rintro ⟨x, y, e⟩
    have : (61 : Int) ∈ g3 ++ [75] ++ g4 := by rw [e]; simp
    simp only [List.mem_append] at this
    rcases this with (h | h) | h
    · exact hsp61 g3 hg3 h
    · exact absurd h (by decide)
    · exact hsp61 g4 hg4 h
  have hmid : ¬ ∃ x y, (g1 ++ body ++ g2) ++ 61 :: (g3 ++ [75] ++ g4) = x ++ 61 :: 61 :: y := by
    refine no_double_eq ?_ ?_ hend
    · simp only [List.mem_append]
      rintro ((h | h) | h)
      · exact hsp61 g1 hg1 h
      · exact hb61 h
      · exact hsp61 g2 hg2 h
    · rw [List.append_assoc]
      exact hhd g3 _ hg3 (by simp)
  have htext : g1 ++ (body ++ g2 ++ ([61] ++ g3 ++ ([75] ++ g4 ++ []))) = (g1 ++ body ++ g2) ++ 61 :: (g3 ++ [75] ++ g4) := by simp
  refine ⟨(g1 ++ body ++ g2) ++ 61 :: (g3 ++ [75] ++ g4), body, ?_, ?_, ?_⟩
  · refine ⟨⟨lead, p, lit "DE", ?_, hlead, ⟨68, 69, by decide, .inl rfl, .inl rfl⟩, hlaid⟩, ?_, ?_, by simp, ?_, ?_⟩
    · simp
    · intro w hw
      simp only [Option.toList_none, List.mem_append, List.mem_cons, List.not_mem_nil, or_false] at hw
      rcases hw with hw | rfl
      · exact (hr w hw).2.2
      · exact hf.2.2
    · intro w hw
      cases hw
      obtain ⟨day, zone, month, year, h1, _⟩ := hdt
      exact ⟨day, zone, month, year, h1⟩
    · intro w hw
      cases hw
      exact ⟨(decimal_digits _).2.2.1 hn, (decimal_digits _).2.1⟩
    · have e2 : lead ++ (p ++ ([61] ++ g1 ++ (body ++ g2 ++ ([61] ++ g3 ++ ([75] ++ g4 ++ []))))) =
          (lead ++ p) ++ 61 :: ((g1 ++ body ++ g2) ++ 61 :: (g3 ++ [75] ++ g4)) := by simp
      rw [e2]
      refine no_double_eq ?_ ?_ hmid
      · simp only [List.mem_append]
        rintro (h | h)
        · exact hsp61 lead hlead h
        · exact hp61 h
      · rw [List.append_assoc, List.append_assoc]
        refine hhd g1 _ hg1 ?_
        intro c hc
        cases body with
        | nil => exact absurd rfl hb0
        | cons x xs =>
          simp at hc
          subst hc
          exact hle x (hb1 x (by simp))
  · refine ⟨⟨g1, g2, g3, g4, 75, by simp, .inl rfl, ?_⟩, hb0, ?_, ?_, ?_⟩
    · intro c hc
      simp only [List.mem_append] at hc
      rcases hc with ((hc | hc) | hc) | hc
      · exact space_blank (hg1 c hc)
      · exact space_blank (hg2 c hc)
      · exact space_blank (hg3 c hc)
      · exact space_blank (hg4 c hc)
    · intro c hc
      exact capital_not_space hU (letter_capital (hb1 c hc))
    · intro c hc
      have hl := hb2 c hc
      refine ⟨capital_not_space hU (letter_capital hl), hle c hl, ?_⟩
      unfold IsLetter at hl
      omega
    · intro hm
      have hsp : ∀ g : Runes, (∀ c ∈ g, c = 32) → (10 : Int) ∉ g := fun g hg hm => absurd (hg 10 hm) (by decide)
      simp only [List.mem_append, List.mem_cons] at hm
      rcases hm with ((h | h) | h) | h | (h | h) | h
      · exact hsp g1 hg1 h
      · rcases hb3 10 h with h | h
        · exact hl10 10 h rfl
        · exact absurd h (by decide)
      · exact hsp g2 hg2 h
      · exact absurd h (by decide)
      · exact hsp g3 hg3 h
      · exact absurd h (by decide)
      · exact hsp g4 hg4 h
  · have hsp32 : U.isSpace 32 = true := hU.isSpace_blank 32 (by simp)
    refine ⟨?_, ?_⟩
    · intro c hc
      rcases hb3 c hc with h | h
      · exact .inr (.inr (by rw [toUpper_letter hU h]; exact h))
      · exact .inl (by rw [h]; exact hsp32)
    · have h1 : body.filter (fun c => !(U.isSpace c || c == 61)) = body.filter (fun c => c != 32) := by
        apply List.filter_congr
        intro c hc
        rcases hb3 c hc with h | h
        · rw [isSpace_letter hU h]
          have := hle c h
          have h3 : c ≠ 32 := by unfold IsLetter at h; omega
          rw [beq_eq_false_iff_ne.2 this, bne_iff_ne.2 h3]; rfl
        · subst h
          simp [hsp32]
      rw [h1, hb4, List.flatten_cons]
      exact (map_capital hU (by
        intro c hc
        rcases List.mem_append.1 hc with hc | hc
        · exact letter_capital (hk c hc)
        · obtain ⟨g, hg, hc⟩ := List.mem_flatten.1 hc
          exact letter_capital ((hgs g hg).2 c hc))).symm

end K431
