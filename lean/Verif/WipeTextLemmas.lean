import Verif.ExportLemmas
import Verif.RadioMatch
import Verif.MsgLemmas

/-! # Helper lemmas: the text of a message is part of its radiogram -/

namespace K431
open Spec

/-- Every group captured is a part of the text. -/
theorem Re.caps_infix {r : Re} : ∀ {s t : ReSt} {whole : Runes}, t ∈ r.run s → s.rest <:+ whole →
    (t.rest <:+ whole) ∧ ∀ q ∈ t.caps, q ∈ s.caps ∨ q.2 <:+: whole := by
  induction r with
  | eps => intro s t w ht hs; simp [Re.run] at ht; subst ht; exact ⟨hs, fun q hq => .inl hq⟩
  | cls p =>
    intro s t w ht hs
    simp only [Re.run] at ht
    split at ht
    · cases ht
    · rename_i c cs hr
      split at ht
      · simp at ht; subst ht
        exact ⟨List.IsSuffix.trans (hr ▸ List.suffix_cons c cs) hs, fun q hq => .inl hq⟩
      · cases ht
  | seq x y ihx ihy =>
    intro s t w ht hs
    simp only [Re.run, List.mem_flatMap] at ht
    obtain ⟨u, hu, ht⟩ := ht
    obtain ⟨a1, a2⟩ := ihx hu hs
    obtain ⟨b1, b2⟩ := ihy ht a1
    refine ⟨b1, fun q hq => ?_⟩
    rcases b2 q hq with h | h
    · exact a2 q h
    · exact .inr h
  | alt x y ihx ihy =>
    intro s t w ht hs
    simp only [Re.run, List.mem_append] at ht
    rcases ht with ht | ht
    · exact ihx ht hs
    · exact ihy ht hs
  | star p =>
    intro s t w ht hs
    simp only [Re.run, List.mem_map] at ht
    obtain ⟨q, hq, rfl⟩ := ht
    obtain ⟨v, e, -⟩ := mem_starRun (b' := q.1) (s' := q.2) hq
    refine ⟨List.IsSuffix.trans ⟨v, e.symm⟩ hs, fun q hq => .inl hq⟩
  | opt x ih =>
    intro s t w ht hs
    simp only [Re.run, List.mem_append, List.mem_singleton] at ht
    rcases ht with ht | rfl
    · exact ih ht hs
    · exact ⟨hs, fun q hq => .inl hq⟩
  | cap i x ih =>
    intro s t w ht hs
    simp only [Re.run, List.mem_map] at ht
    obtain ⟨u, hu, rfl⟩ := ht
    obtain ⟨a1, a2⟩ := ih hu hs
    refine ⟨a1, fun q hq => ?_⟩
    rcases List.mem_cons.1 hq with rfl | hq
    · exact .inr (List.IsInfix.trans (List.take_prefix _ _).isInfix hs.isInfix)
    · exact a2 q hq
  | bot => intro s t w ht hs; simp only [Re.run] at ht; split at ht <;> simp at ht; subst ht; exact ⟨hs, fun q hq => .inl hq⟩
  | eot => intro s t w ht hs; simp only [Re.run] at ht; split at ht <;> simp at ht; subst ht; exact ⟨hs, fun q hq => .inl hq⟩

theorem firstMatch_infix {s : Runes} {caps : List (Nat × Runes)} : ∀ {l : List Re}, firstMatch s l = some caps → ∀ q ∈ caps, q.2 <:+: s := by
  intro l
  induction l with
  | nil => intro h; cases h
  | cons r rs ih =>
    intro h
    unfold firstMatch at h
    split at h
    · rename_i n t hf
      cases h
      obtain ⟨pre, s', e, -, hh, -⟩ := Re.findFrom_some hf
      intro q hq
      rcases (Re.caps_infix (List.mem_of_head? hh) (whole := s') (List.suffix_refl _)).2 q hq with h1 | h1
      · cases h1
      · exact List.IsInfix.trans h1 (e ▸ (List.suffix_append pre s').isInfix)
    · exact ih h

theorem capture_infix {s : Runes} {caps : List (Nat × Runes)} (h : ∀ q ∈ caps, q.2 <:+: s) (i : Nat) : capture caps i <:+: s := by
  unfold capture
  split
  · rename_i p hp
    exact h p (List.mem_of_find?_eq_some hp)
  · exact (List.nil_prefix).isInfix

theorem trimSpace_infix (U : Unicode) (s : Runes) : trimSpace U s <:+: s := by
  unfold trimSpace
  refine List.IsInfix.trans ?_ (List.dropWhile_suffix U.isSpace).isInfix
  rw [← List.reverse_infix, List.reverse_reverse]
  exact (List.dropWhile_suffix U.isSpace).isInfix

theorem trimRight_infix (f : Rune → Bool) (s : Runes) : trimRight f s <:+: s := by
  unfold trimRight
  rw [← List.reverse_infix, List.reverse_reverse]
  exact (List.dropWhile_suffix f).isInfix

theorem withoutTrail_infix (s : Runes) : withoutTrail s <:+: s := by
  unfold withoutTrail
  split
  · exact (List.take_prefix _ _).isInfix
  · exact List.infix_rfl

/-- The text that `ParseRadiogram` finds is a part of the radiogram that it keeps. -/
theorem parse_infix {U : Unicode} {E : RadioEnv} {msgs : List Msg} {r : Runes} {t t' : Tape} {m : Msg}
    (h : parseRadiogram U E msgs r t = some (.ok m, t')) : m.plainText <:+: m.radiogram := by
  obtain ⟨caps, hf, _, _, _, _, _, hr, hp⟩ := parse_ok h
  rw [hr, hp]
  exact (trimRight_infix _ _).trans ((trimSpace_infix U _).trans ((withoutTrail_infix _).trans (capture_infix (firstMatch_infix hf) 4)))

theorem decipher_from {U : Unicode} {f : Runes} {inst inst' : Inst} {m m' : Msg} {o : Outcome Unit}
    (h : decipher U f inst m = (o, inst', m')) : m'.from_ = m.from_ := by
  have hw : ∀ p : Msg, (withId f p).from_ = p.from_ := by intro p; unfold withId; split <;> rfl
  unfold decipher at h
  simp only at h
  repeat' split at h
  all_goals (simp only [Prod.mk.injEq] at h; obtain ⟨_, rfl, rfl⟩ := h; exact hw m)

theorem tryDecipher_from {U : Unicode} {f : Runes} {dry : Bool} {inst inst' : Inst} {m m' : Msg} {o : Outcome Unit}
    (h : tryDecipher U f dry inst m = (o, inst', m')) : m'.from_ = m.from_ := by
  have hw : ∀ p : Msg, (withId f p).from_ = p.from_ := by intro p; unfold withId; split <;> rfl
  unfold tryDecipher at h
  dsimp only at h
  repeat' split at h
  all_goals first
    | (cases h; first | rfl | exact hw m)
    | (rename_i hd; cases h; have e := decipher_from hd; first | exact e | exact e.trans (hw m))

/-- An outgoing message keeps text and radiogram as parsed. -/
theorem newRun_infix {U : Unicode} {noise : Nat → Rune} {E : RadioEnv} {f : Runes} {inst inst' : Inst} {args : List Runes} {t t' : Tape} {m : Msg}
    (h : newTextMessageRun U noise E f inst args t = some ((.ok m, inst'), t')) (hm : isMyCall U inst m = true) : m.plainText <:+: m.radiogram := by
  have hwid : ∀ p : Msg, (withId f p).plainText = p.plainText ∧ (withId f p).radiogram = p.radiogram := by
    intro p; unfold withId; split <;> exact ⟨rfl, rfl⟩
  have hcase : ∀ {o : Outcome Msg} {r : Runes} {rest : List Runes}, newTextMessage U noise f (fun _ => o) inst (r :: rest) = (.ok m, inst') →
      (∀ p, o = .ok p → p.plainText <:+: p.radiogram) → m.plainText <:+: m.radiogram := by
    intro o r rest hn hp
    have := newTextMessage_cases hn
    generalize ho : (Outcome.ok m : Outcome Msg) = oc at this
    cases this with
    | failed hne => exact absurd ho.symm (hne m)
    | own _ hpp _ hc he =>
      cases ho
      obtain ⟨-, e⟩ := encipher_ok_messages he
      have h1 := hp _ hpp
      rcases hc with ⟨-, rfl, -⟩ | ⟨_, _, _, -, rfl, -⟩ <;> rw [e] <;> dsimp only <;> rw [(hwid _).1, (hwid _).2] <;> exact h1
    | other _ _ hno hp1 ht =>
      cases ho
      exfalso
      have hfrom : m.from_ = _ := (tryDecipher_from ht)
      unfold isMyCall at hm hno
      rw [hfrom, hp1] at hm
      split at hm <;> (rw [hno] at hm; cases hm)
  unfold newTextMessageRun at h
  split at h
  · simp only [Option.some.injEq, Prod.mk.injEq] at h
    have h1 := h.1
    unfold newTextMessage at h1
    cases h1
  · split at h
    · cases h
    · rename_i hp
      simp only [Option.some.injEq, Prod.mk.injEq] at h
      exact hcase h.1 (fun p e => parse_infix (by rw [hp, e]))

end K431
