import Verif.SpecLegend
import Verif.DecLemmas
import Mathlib.Data.List.Forall2

/-!
# Lemmas: the loop of `Decipher` reads by the legend
-/

namespace K431
open Spec

/-- the coder is between two things -/
def AtThing (keys : List Key) (d : DState) (r : Reader) : Prop :=
  ∃ k, keys[d.key]? = some k ∧ r.pad = k.runes.drop d.ki ∧ Plain d.st ∧ d.st.table = (if r.second then 1 else 0) ∧ d.st.shift = r.small ∧ d.nextKey = []

/-- the coder collects the id of the next key -/
def Phase (g : Nat) (keys : List Key) (d : DState) (pad : Runes) : Prop :=
  ∃ k, keys[d.key]? = some k ∧ pad = k.runes.drop d.ki ∧ d.st.binary = false ∧ (d.st.gotChangeKeyChar = true ∨ d.st.keyChange = true) ∧ d.nextKey.length < g

/-- the positions `js` have the ids `ids` -/
def Named (keys : List Key) (js : List Nat) (ids : List Runes) : Prop :=
  List.Forall₂ (fun j id => ∃ k, keys[j]? = some k ∧ k.id.val = id) js ids

theorem decLoop_app {U : Unicode} {g : Nat} {keys : List Key} {b : Runes} : ∀ {a : Runes} {d d1 : DState} {p : Runes}, decLoop U g keys a d = (.ok d1, p) →
    decLoop U g keys (a ++ b) d = decLoop U g keys b d1 := by
  intro a
  induction a with
  | nil => intro d d1 p h; simp [decLoop] at h; rw [List.nil_append, h.1]
  | cons c cs ih =>
    intro d d1 p h
    simp only [decLoop, List.cons_append] at h ⊢
    rcases hd : decStep U g keys d c with d2 | e | _
    · rw [hd] at h; exact ih h
    · rw [hd] at h; simp at h
    · rw [hd] at h; simp at h

theorem decLoop_text {U : Unicode} {g : Nat} {keys : List Key} : ∀ {a : Runes} {d d1 : DState} {p : Runes}, decLoop U g keys a d = (.ok d1, p) → p = d1.plain := by
  intro a
  induction a with
  | nil => intro d d1 p h; simp [decLoop] at h; rw [← h.1, h.2]
  | cons c cs ih =>
    intro d d1 p h
    simp only [decLoop] at h
    rcases hd : decStep U g keys d c with d2 | e | _
    · rw [hd] at h; exact ih h
    · rw [hd] at h; simp at h
    · rw [hd] at h; simp at h

theorem trigraph_swap {x y z : Rune} (h : Trigraph x y z) : Trigraph x z y := by
  obtain ⟨a, b, c, d⟩ := h
  exact ⟨a, c, b, by omega⟩

/-- a step succeeds only with a letter on the pad that forms a trigraph -/
theorem decStep_letter {U : Unicode} {g : Nat} {keys : List Key} {d : DState} {k : Key} {pad : Runes} {z : Rune} (hk : keys[d.key]? = some k)
    (hp : pad = k.runes.drop d.ki) {d' : DState} (h : decStep U g keys d z = .ok d') : ∃ p pad' e, pad = p :: pad' ∧ Trigraph p e z := by
  unfold decStep at h
  rw [hk] at h
  dsimp only at h
  split at h
  · simp at h
  rename_i hlt
  have hlt : d.ki < k.runes.length := by omega
  rw [List.getElem?_eq_getElem hlt] at h
  dsimp only at h
  rcases ht : trigraph k.runes[d.ki] z with e | x | _
  · exact ⟨_, _, e, by rw [hp, List.drop_eq_getElem_cons hlt], trigraph_swap ((trigraph_ok_iff _ _ _).1 ht)⟩
  · rw [ht] at h; simp at h
  · rw [ht] at h; simp at h

theorem decStep_tri {U : Unicode} {g : Nat} {keys : List Key} {d : DState} {k : Key} {p e z : Rune} {pad : Runes} (hk : keys[d.key]? = some k)
    (hp : p :: pad = k.runes.drop d.ki) (ht : Trigraph p e z) :
    pad = k.runes.drop (d.ki + 1) ∧
    decStep U g keys d z =
      match decodeCharacter U d.st e d.plain with
      | .err x => .err x
      | .panic => .panic
      | .ok (st, plain) =>
        if st.keyChange then
          if d.nextKey.length + 1 ≥ g then
            match getKey U keys (d.nextKey ++ [e]) with
            | none => .err .keyNotFound
            | some j => .ok ⟨j, 0, [], newState, d.stack ++ [j], plain⟩
          else .ok ⟨d.key, d.ki + 1, d.nextKey ++ [e], st, d.stack, plain⟩
        else .ok ⟨d.key, d.ki + 1, d.nextKey, st, d.stack, plain⟩ := by
  have hlt : d.ki < k.runes.length := by
    have := congrArg List.length hp
    simp at this; omega
  have h2 := hp
  rw [List.drop_eq_getElem_cons hlt, List.cons.injEq] at h2
  refine ⟨h2.2, ?_⟩
  unfold decStep
  rw [hk]
  dsimp only
  rw [if_neg (by omega), List.getElem?_eq_getElem hlt]
  dsimp only
  rw [← h2.1, (trigraph_ok_iff _ _ _).2 (trigraph_swap ht)]
  dsimp only
  rcases decodeCharacter U d.st e d.plain with ⟨st, plain⟩ | x | _
  · dsimp only
    simp only [List.length_append, List.length_singleton]
    split
    · split
      · split <;> rename_i hgk <;> rw [hgk]
      · rfl
    · rfl
  · rfl
  · rfl

theorem smallOf_toLower {U : Unicode} (hU : U.Lawful) {second small : Bool} {e c : Rune} (h : Codes second e c) :
    (if small && (c != spaceChar) then U.toLower c else c) = (if small then smallOf c else c) := by
  have hc : c ∈ capitals ++ neutrals := by
    have := List.mem_of_getElem? h.2
    have h1 : ∀ c ∈ firstTable, c ∈ capitals ++ neutrals := by decide
    have h2 : ∀ c ∈ secondTable, c ∈ capitals ++ neutrals := by decide
    cases second
    · exact h1 _ this
    · exact h2 _ this
  cases small
  · simp
  · simp only [Bool.true_and, if_true, smallOf, bne_iff_ne, ne_eq, ite_not]
    rcases List.mem_append.1 hc with hc | hc
    · rw [if_pos hc, if_neg, (hU.capital c hc).2.2.2]
      intro he; subst he; revert hc; decide
    · rw [(hU.neutral c hc).2.2.2]
      have : ∀ c ∈ neutrals, c ∉ capitals := by decide
      rw [if_neg (this c hc)]; simp

/-- what a letter means to the coder between two things -/
theorem decode_cases {U : Unicode} (hU : U.Lawful) {st : CState} (h : Plain st) {second : Bool} (ht : st.table = if second then 1 else 0) {e : Rune} (he : IsLetter e) :
    (∃ c, Codes second e c ∧ ∀ out, decodeCharacter U st e out = .ok ({ st with charCounter := st.charCounter + 1 }, out ++ [if st.shift then smallOf c else c])) ∨
    e = switchLetter ∨ second = true ∧ (e = caseLetter ∨ e = keyLetter ∨ e = binaryLetter) := by
  obtain ⟨i, hi, rfl⟩ : ∃ i : Nat, i < 26 ∧ e = (i : Int) + 65 := ⟨(e - 65).toNat, by unfold IsLetter at he; omega, by unfold IsLetter at he; omega⟩
  have hpos : (pos ((i : Int) + 65)).toNat = i := by unfold pos; omega
  cases second with
  | false =>
    have hT : ∀ i < 26, i ≠ 25 → ∃ c, firstTable[i]? = some c ∧ characterTablePrimary[i]? = some c ∧ c ≠ specialOpChar := by
      intro i hi h25
      have : ∀ i < 26, i ≠ 25 → firstTable[i]? ≠ none ∧ firstTable[i]? = characterTablePrimary[i]? ∧ firstTable[i]? ≠ some specialOpChar := by decide
      obtain ⟨a, b, c⟩ := this i hi h25
      obtain ⟨x, hx⟩ := Option.ne_none_iff_exists'.1 a
      exact ⟨x, hx, by rw [← b, hx], fun hs => c (by rw [hx, hs])⟩
    by_cases h25 : i = 25
    · right; left; subst h25; rfl
    · obtain ⟨c, h1, h2, h3⟩ := hT i hi h25
      have hcod : Codes false ((i : Int) + 65) c := ⟨he, by rw [hpos]; exact h1⟩
      left
      refine ⟨c, hcod, fun out => ?_⟩
      rw [decode_char U st h 0 i c out ht (Or.inl ⟨rfl, h2⟩) hi h3, smallOf_toLower hU hcod]
  | true =>
    have hT : ∀ i < 26, i < 22 → ∃ c, secondTable[i]? = some c ∧ characterTableSecondary[i]? = some c ∧ c ≠ specialOpChar := by
      intro i hi h25
      have : ∀ i < 26, i < 22 → secondTable[i]? ≠ none ∧ secondTable[i]? = characterTableSecondary[i]? ∧ secondTable[i]? ≠ some specialOpChar := by decide
      obtain ⟨a, b, c⟩ := this i hi h25
      obtain ⟨x, hx⟩ := Option.ne_none_iff_exists'.1 a
      exact ⟨x, hx, by rw [← b, hx], fun hs => c (by rw [hx, hs])⟩
    by_cases h22 : i < 22
    · obtain ⟨c, h1, h2, h3⟩ := hT i hi h22
      have hcod : Codes true ((i : Int) + 65) c := ⟨he, by rw [hpos]; exact h1⟩
      left
      refine ⟨c, hcod, fun out => ?_⟩
      rw [decode_char U st h 1 i c out ht (Or.inr ⟨rfl, h2⟩) hi h3, smallOf_toLower hU hcod]
    · right
      have : i = 22 ∨ i = 23 ∨ i = 24 ∨ i = 25 := by omega
      rcases this with rfl | rfl | rfl | rfl
      · right; exact ⟨rfl, Or.inr (Or.inr rfl)⟩
      · right; exact ⟨rfl, Or.inl rfl⟩
      · right; exact ⟨rfl, Or.inr (Or.inl rfl)⟩
      · left; rfl

theorem decode_binary (U : Unicode) (st : CState) (h : Plain st) (ht : st.table = 1) (out : Runes) :
    decodeCharacter U st 87 out = .ok ({ st with binary := true }, out) := by
  obtain ⟨tb, cc, g, k, s, b⟩ := st
  obtain ⟨h1, h2, h3, h4⟩ := h
  simp only at h1 h2 h3 h4 ht
  subst h2 h3 h4 ht
  rfl

/-- no letter that codes a character is a control letter -/
theorem Codes.not_control {second : Bool} {e c : Rune} (h : Codes second e c) : e ≠ switchLetter ∧ (second = true → e ≠ caseLetter ∧ e ≠ keyLetter ∧ e ≠ binaryLetter) := by
  obtain ⟨h1, h2⟩ := h
  have hf : firstTable.length = 25 := by decide
  have hs : secondTable.length = 22 := by decide
  cases second with
  | false =>
    refine ⟨?_, by simp⟩
    rintro rfl
    have hl := (List.getElem?_eq_some_iff.1 h2).1
    revert hl; decide
  | true =>
    have hl := (List.getElem?_eq_some_iff.1 h2).1
    simp only [if_true, hs] at hl
    refine ⟨?_, fun _ => ⟨?_, ?_, ?_⟩⟩ <;> rintro rfl <;> revert hl <;> decide

theorem Phase.step {U : Unicode} {g : Nat} {keys : List Key} {d : DState} {p e z : Rune} {pad : Runes} (h : Phase g keys d (p :: pad)) (ht : Trigraph p e z) :
    (d.nextKey.length + 1 < g → ∃ d', decStep U g keys d z = .ok d' ∧ Phase g keys d' pad ∧ d'.nextKey = d.nextKey ++ [e] ∧ d'.stack = d.stack ∧ d'.plain = d.plain) ∧
    (d.nextKey.length + 1 = g → decStep U g keys d z = match getKey U keys (d.nextKey ++ [e]) with
      | none => .err .keyNotFound
      | some j => .ok ⟨j, 0, [], newState, d.stack ++ [j], d.plain⟩) := by
  obtain ⟨k, hk, hp, hb, hor, hn⟩ := h
  obtain ⟨hp', hs⟩ := decStep_tri (U := U) (g := g) hk hp ht
  have he : ¬ (e < 65 ∨ e > 90) := by have := ht.2.1; unfold IsLetter at this; omega
  have hd : ∃ st, decodeCharacter U d.st e d.plain = .ok (st, d.plain) ∧ st.keyChange = true ∧ st.binary = false := by
    generalize d.st = st at hb hor
    obtain ⟨tb, cc, gc, kc, s, b⟩ := st
    dsimp only at hb hor
    subst hb
    cases gc with
    | false =>
      have hkc : kc = true := by simpa using hor
      subst hkc
      exact ⟨⟨tb, cc, false, true, s, false⟩, by simp [decodeCharacter, he], rfl, rfl⟩
    | true => exact ⟨⟨tb, cc, false, true, s, false⟩, by simp [decodeCharacter, he], rfl, rfl⟩
  obtain ⟨st, hd, hkc, hb'⟩ := hd
  rw [hd] at hs
  dsimp only at hs
  rw [if_pos hkc] at hs
  refine ⟨fun hlt => ?_, fun heq => ?_⟩
  · rw [if_neg (by omega)] at hs
    exact ⟨_, hs, ⟨k, hk, hp', hb', Or.inr hkc, by simp; omega⟩, rfl, rfl, rfl⟩
  · rw [if_pos (by omega)] at hs
    exact hs

theorem enciphered_length : ∀ {pad es zs : Runes}, Enciphered pad es zs → es.length = zs.length ∧ es.length ≤ pad.length := by
  intro pad es
  induction es generalizing pad with
  | nil => intro zs h; cases zs with
    | nil => simp
    | cons z zs => cases pad <;> simp [Enciphered] at h
  | cons e es ih =>
    intro zs h
    cases pad with
    | nil => cases zs <;> simp [Enciphered] at h
    | cons p pad =>
      cases zs with
      | nil => simp [Enciphered] at h
      | cons z zs =>
        obtain ⟨h1, h2⟩ := ih h.2
        simp; omega

theorem enciphered_letters : ∀ {pad es zs : Runes}, Enciphered pad es zs → ∀ c ∈ es, IsLetter c := by
  intro pad es
  induction es generalizing pad with
  | nil => simp
  | cons e es ih =>
    intro zs h
    cases pad with
    | nil => cases zs <;> simp [Enciphered] at h
    | cons p pad =>
      cases zs with
      | nil => simp [Enciphered] at h
      | cons z zs =>
        intro c hc
        rcases List.mem_cons.1 hc with rfl | hc
        · exact h.1.2.1
        · exact ih h.2 c hc

/-- the id of the next key is read, or the ciphertext ends before -/
theorem Phase.sound {U : Unicode} {g : Nat} {keys : List Key} : ∀ {zs : Runes} {d d' : DState} {pad p : Runes}, Phase g keys d pad → decLoop U g keys zs d = (.ok d', p) →
    (∃ es, Enciphered pad es zs ∧ (d.nextKey ++ es).length < g ∧ d'.plain = d.plain ∧ d'.stack = d.stack) ∨
    ∃ es zs1 zs2 j, zs = zs1 ++ zs2 ∧ Enciphered pad es zs1 ∧ (d.nextKey ++ es).length = g ∧ getKey U keys (d.nextKey ++ es) = some j ∧
      decLoop U g keys zs2 ⟨j, 0, [], newState, d.stack ++ [j], d.plain⟩ = (.ok d', p) := by
  intro zs
  induction zs with
  | nil =>
    intro d d' pad p h hd
    simp [decLoop] at hd
    obtain ⟨rfl, -⟩ := hd
    left
    obtain ⟨k, hk, hp, hb, hor, hn⟩ := h
    exact ⟨[], by cases pad <;> trivial, by simpa using hn, rfl, rfl⟩
  | cons z zs ih =>
    intro d d' pad p h hd
    simp only [decLoop] at hd
    rcases hs : decStep U g keys d z with d1 | x | _
    rotate_left
    · rw [hs] at hd; simp at hd
    · rw [hs] at hd; simp at hd
    rw [hs] at hd
    dsimp only at hd
    have h0 := h
    obtain ⟨k, hk, hp, hb, hor, hn⟩ := h
    obtain ⟨q, pad', e, rfl, ht⟩ := decStep_letter hk hp hs
    obtain ⟨s1, s2⟩ := h0.step (U := U) ht
    by_cases hlt : d.nextKey.length + 1 < g
    · obtain ⟨d2, e1, e2, e3, e4, e5⟩ := s1 hlt
      rw [hs] at e1
      cases e1
      rcases ih e2 hd with ⟨es, f1, f2, f3, f4⟩ | ⟨es, zs1, zs2, j, f1, f2, f3, f4, f5⟩
      · left
        exact ⟨e :: es, ⟨ht, f1⟩, by rw [e3] at f2; simpa using f2, by rw [f3, e5], by rw [f4, e4]⟩
      · right
        rw [e3] at f3 f4
        rw [e4, e5] at f5
        exact ⟨e :: es, z :: zs1, zs2, j, by rw [f1]; rfl, ⟨ht, f2⟩, by simpa using f3, by simpa using f4, f5⟩
    · have heq : d.nextKey.length + 1 = g := by omega
      have s3 := s2 heq
      rw [hs] at s3
      rcases hg : getKey U keys (d.nextKey ++ [e]) with _ | j
      · rw [hg] at s3; simp at s3
      · rw [hg] at s3
        simp only [Outcome.ok.injEq] at s3
        right
        rw [s3] at hd
        exact ⟨[e], [z], zs, j, rfl, ⟨ht, by cases pad' <;> trivial⟩, by simp; omega, hg, hd⟩

/-- an unfinished id -/
theorem Phase.cut {U : Unicode} {g : Nat} {keys : List Key} : ∀ {zs es : Runes} {d : DState} {pad : Runes}, Phase g keys d pad → Enciphered pad es zs → (d.nextKey ++ es).length < g →
    ∃ d' pad', decLoop U g keys zs d = (.ok d', d'.plain) ∧ Phase g keys d' pad' ∧ pad' = pad.drop zs.length ∧ d'.plain = d.plain ∧ d'.stack = d.stack ∧ d'.nextKey = d.nextKey ++ es := by
  intro zs
  induction zs with
  | nil =>
    intro es d pad h he hl
    have := (enciphered_length he).1
    have hes : es = [] := List.length_eq_zero_iff.1 this
    subst hes
    exact ⟨d, pad, rfl, h, rfl, rfl, rfl, by simp⟩
  | cons z zs ih =>
    intro es d pad h he hl
    cases es with
    | nil => simp [Enciphered] at he
    | cons e es =>
      cases pad with
      | nil => simp [Enciphered] at he
      | cons q pad =>
        simp at hl
        obtain ⟨d2, e1, e2, e3, e4, e5⟩ := (h.step (U := U) he.1).1 (by omega)
        obtain ⟨d', pad', f1, f2, f3, f4, f5, f6⟩ := ih e2 he.2 (by rw [e3]; simp; omega)
        refine ⟨d', pad', ?_, f2, by rw [f3]; rfl, by rw [f4, e5], by rw [f5, e4], by rw [f6, e3]; simp⟩
        simp only [decLoop, e1]
        exact f1

theorem enciphered_snoc : ∀ {pad es zs : Runes} {e z : Rune}, Enciphered pad (es ++ [e]) (zs ++ [z]) → Enciphered pad es zs ∧ ∃ q, pad[zs.length]? = some q ∧ Trigraph q e z := by
  intro pad es
  induction es generalizing pad with
  | nil =>
    intro zs e z h
    have := (enciphered_length h).1
    simp at this
    subst this
    cases pad with
    | nil => simp [Enciphered] at h
    | cons q pad => exact ⟨by trivial, q, rfl, h.1⟩
  | cons x es ih =>
    intro zs e z h
    have hl := (enciphered_length h).1
    simp at hl
    cases zs with
    | nil => simp at hl
    | cons y zs =>
      cases pad with
      | nil => simp [Enciphered] at h
      | cons q pad =>
        obtain ⟨h1, h2⟩ := ih h.2
        exact ⟨⟨h.1, h1⟩, by simpa using h2⟩

/-- a whole id -/
theorem Phase.complete {U : Unicode} {g : Nat} {keys : List Key} {zs es : Runes} {d : DState} {pad : Runes} {j : Nat} (h : Phase g keys d pad) (hn : d.nextKey = [])
    (he : Enciphered pad es zs) (hl : es.length = g) (hj : getKey U keys es = some j) :
    decLoop U g keys zs d = (.ok ⟨j, 0, [], newState, d.stack ++ [j], d.plain⟩, d.plain) := by
  have hg : 0 < g := by obtain ⟨k, hk, hp, hb, hor, hn⟩ := h; omega
  rcases List.eq_nil_or_concat es with rfl | ⟨es', e, rfl⟩
  · simp at hl; omega
  rcases List.eq_nil_or_concat zs with rfl | ⟨zs', z, rfl⟩
  · have := (enciphered_length he).1; simp at this
  simp only [List.concat_eq_append] at he hl hj ⊢
  obtain ⟨he1, q, hq, ht⟩ := enciphered_snoc he
  simp at hl
  obtain ⟨d', pad', f1, f2, f3, f4, f5, f6⟩ := h.cut (U := U) he1 (by rw [hn]; simp; omega)
  rw [decLoop_app f1]
  have hpad : pad' = q :: pad.drop (zs'.length + 1) := by
    rw [f3]
    have hlt := (List.getElem?_eq_some_iff.1 hq).1
    rw [List.drop_eq_getElem_cons hlt]
    rw [List.getElem?_eq_getElem hlt, Option.some.injEq] at hq
    rw [hq]
  rw [hpad] at f2
  have := (f2.step (U := U) ht).2 (by rw [f6, hn]; simp; omega)
  rw [f6, hn, List.nil_append, hj] at this
  simp only [decLoop, this, f4, f5]

theorem AtThing.fresh {keys : List Key} {j : Nat} {k : Key} (hk : keys[j]? = some k) (stack : List Nat) (plain : Runes) :
    AtThing keys ⟨j, 0, [], newState, stack, plain⟩ (Reader.fresh k.runes) :=
  ⟨k, hk, rfl, plain_new, rfl, rfl, rfl⟩

/-- one letter between two things -/
theorem AtThing.step {U : Unicode} (hU : U.Lawful) {g : Nat} (hg : g ≠ 0) {keys : List Key} {d : DState} {p e z : Rune} {pad : Runes} {second small : Bool} (h : AtThing keys d ⟨p :: pad, second, small⟩)
    (ht : Trigraph p e z) :
    (∀ c, Codes second e c → ∃ d', decStep U g keys d z = .ok d' ∧ AtThing keys d' ⟨pad, second, small⟩ ∧ d'.plain = d.plain ++ [if small then smallOf c else c] ∧ d'.stack = d.stack ∧
      d' = { d with ki := d.ki + 1, st := { d.st with charCounter := d.st.charCounter + 1 }, plain := d.plain ++ [if small then smallOf c else c] }) ∧
    (e = switchLetter → ∃ d', decStep U g keys d z = .ok d' ∧ AtThing keys d' ⟨pad, !second, small⟩ ∧ d'.plain = d.plain ∧ d'.stack = d.stack) ∧
    (second = true → e = caseLetter → ∃ d', decStep U g keys d z = .ok d' ∧ AtThing keys d' ⟨pad, true, !small⟩ ∧ d'.plain = d.plain ∧ d'.stack = d.stack) ∧
    (second = true → e = keyLetter → ∃ d', decStep U g keys d z = .ok d' ∧ Phase g keys d' pad ∧ d'.nextKey = [] ∧ d'.plain = d.plain ∧ d'.stack = d.stack) ∧
    (second = true → e = binaryLetter → ∃ d', decStep U g keys d z = .ok d' ∧ d'.st.binary = true ∧ d'.plain = d.plain ∧ d'.stack = d.stack ∧ ∃ k, keys[d'.key]? = some k) := by
  obtain ⟨k, hk, hp, hpl, htab, hsh, hn⟩ := h
  dsimp only at hp htab hsh
  obtain ⟨hp', hs⟩ := decStep_tri (U := U) (g := g) hk hp ht
  have hkc := hpl.k
  have hnk : (d.st.keyChange = true) = False := by simp [hkc]
  refine ⟨?_, ?_, ?_, ?_, ?_⟩
  · intro c hc
    rcases decode_cases hU hpl htab ht.2.1 with ⟨c', hc', hd⟩ | rfl | ⟨hsec, he⟩
    · have : c' = c := by have := hc'.2.symm.trans hc.2; simpa using this
      subst this
      rw [hd] at hs
      dsimp only at hs
      rw [if_neg (by simp [hkc])] at hs
      exact ⟨_, hs, ⟨k, hk, hp', ⟨hpl.tab, hpl.g, hpl.k, hpl.b⟩, htab, hsh, hn⟩, by simp only [hsh], rfl, by simp only [hsh]⟩
    · exact absurd rfl hc.not_control.1
    · obtain ⟨a, b, c⟩ := hc.not_control.2 hsec
      rcases he with h | h | h
      · exact absurd h a
      · exact absurd h b
      · exact absurd h c
  · rintro rfl
    rw [show switchLetter = 90 from rfl, decode_switch U _ hpl] at hs
    dsimp only at hs
    rw [if_neg (by simp [hkc])] at hs
    refine ⟨_, hs, ⟨k, hk, hp', ⟨?_, hpl.g, hpl.k, hpl.b⟩, ?_, hsh, hn⟩, rfl, rfl⟩
    · simp only; omega
    · simp only [htab]; cases second <;> rfl
  · rintro rfl rfl
    rw [show caseLetter = 88 from rfl, decode_case U _ hpl htab] at hs
    dsimp only at hs
    rw [if_neg (by simp [hkc])] at hs
    exact ⟨_, hs, ⟨k, hk, hp', ⟨hpl.tab, hpl.g, hpl.k, hpl.b⟩, htab, by simp only [hsh], hn⟩, rfl, rfl⟩
  · rintro rfl rfl
    rw [show keyLetter = 89 from rfl, decode_changeKey U _ hpl htab] at hs
    dsimp only at hs
    rw [if_neg (by simp [hkc])] at hs
    exact ⟨_, hs, ⟨k, hk, hp', hpl.b, Or.inl rfl, by rw [hn]; simp; omega⟩, hn, rfl, rfl⟩
  · rintro rfl rfl
    rw [show binaryLetter = 87 from rfl, decode_binary U _ hpl htab] at hs
    dsimp only at hs
    rw [if_neg (by simp [hkc])] at hs
    exact ⟨_, hs, rfl, rfl, rfl, k, hk⟩

/-- after "binary" nothing can be read -/
theorem decStep_in_binary {U : Unicode} {g : Nat} {keys : List Key} {d : DState} {k : Key} {z : Rune} (hk : keys[d.key]? = some k) (hb : d.st.binary = true) {d' : DState} :
    decStep U g keys d z ≠ .ok d' := by
  intro h
  obtain ⟨p, pad, e, hp, ht⟩ := decStep_letter hk rfl h
  obtain ⟨-, hs⟩ := decStep_tri (U := U) (g := g) hk hp.symm ht
  have : decodeCharacter U d.st e d.plain = .err .binaryMode := by
    have he : ¬ (e < 65 ∨ e > 90) := by have := ht.2.1; unfold IsLetter at this; omega
    unfold decodeCharacter
    rw [if_neg he, if_pos hb]
  rw [this, h] at hs
  simp at hs

theorem getKey_id {U : Unicode} (hU : U.Lawful) {keys : List Key} (hw : WellFormed keys) {id : Runes} (hid : ∀ c ∈ id, IsLetter c) {j : Nat} :
    getKey U keys id = some j ↔ ∃ k, keys[j]? = some k ∧ k.id.val = id := by
  constructor
  · intro h
    obtain ⟨k, h1, h2, -⟩ := getKey_some h
    rw [lookupName_letters hU hid, goStr_eq_letters hid] at h2
    exact ⟨k, h1, h2⟩
  · rintro ⟨k, h1, rfl⟩
    exact hw.getKey hU h1

theorem decLoop_sound {U : Unicode} (hU : U.Lawful) {g : Nat} (hg : g ≠ 0) {keys : List Key} (hw : WellFormed keys) : ∀ (n : Nat) {ct : Runes}, ct.length ≤ n →
    ∀ {d d' : DState} {r : Reader} {p : Runes}, AtThing keys d r → decLoop U g keys ct d = (.ok d', p) →
      ∃ text ids js, ByHand g keys r ct text ids ∧ d'.plain = d.plain ++ text ∧ d'.stack = d.stack ++ js ∧ Named keys js ids := by
  intro n
  induction n with
  | zero =>
    intro ct hn d d' r p h hd
    have : ct = [] := List.length_eq_zero_iff.1 (by omega)
    subst this
    simp [decLoop] at hd
    rw [← hd.1]
    exact ⟨[], [], [], ⟨[], [], r, rfl, .nil, .nothing⟩, by simp, by simp, .nil⟩
  | succ n ih =>
    intro ct hn d d' r p h hd
    cases ct with
    | nil =>
      simp [decLoop] at hd
      rw [← hd.1]
      exact ⟨[], [], [], ⟨[], [], r, rfl, .nil, .nothing⟩, by simp, by simp, .nil⟩
    | cons z zs =>
      simp only [List.length_cons] at hn
      simp only [decLoop] at hd
      rcases hs : decStep U g keys d z with d1 | x | _
      rotate_left
      · rw [hs] at hd; simp at hd
      · rw [hs] at hd; simp at hd
      rw [hs] at hd
      dsimp only at hd
      obtain ⟨rpad, second, small⟩ := r
      have h0 := h
      obtain ⟨k, hk, hp, hpl, htab, hsh, hnk⟩ := h
      dsimp only at hp htab hsh
      obtain ⟨q, pad, e, rfl, ht⟩ := decStep_letter hk hp hs
      obtain ⟨s1, s2, s3, s4, s5⟩ := h0.step (U := U) hU hg ht
      have go : ∀ {t : Runes} {r' : Reader}, ReadsOne g keys ⟨q :: pad, second, small⟩ [z] t [] r' → AtThing keys d1 r' → d1.plain = d.plain ++ t → d1.stack = d.stack →
          ∃ text ids js, ByHand g keys ⟨q :: pad, second, small⟩ (z :: zs) text ids ∧ d'.plain = d.plain ++ text ∧ d'.stack = d.stack ++ js ∧ Named keys js ids := by
        intro t r' hone hsim hpl' hst
        obtain ⟨text, ids, js, ⟨a, b, r2, rfl, f1, f2⟩, f3, f4, f5⟩ := ih (by omega) hsim hd
        exact ⟨t ++ text, [] ++ ids, js, ⟨z :: a, b, r2, rfl, .cons hone f1, f2⟩, by rw [f3, hpl', List.append_assoc], by rw [f4, hst], f5⟩
      rcases decode_cases hU hpl htab ht.2.1 with ⟨c, hc, -⟩ | rfl | ⟨rfl, rfl | rfl | rfl⟩
      · obtain ⟨d2, e1, e2, e3, e4, -⟩ := s1 c hc
        rw [hs] at e1; cases e1
        exact go (.char ht hc) e2 e3 e4
      · obtain ⟨d2, e1, e2, e3, e4⟩ := s2 rfl
        rw [hs] at e1; cases e1
        exact go (.switch ht) e2 (by rw [e3, List.append_nil]) e4
      · obtain ⟨d2, e1, e2, e3, e4⟩ := s3 rfl rfl
        rw [hs] at e1; cases e1
        exact go (.case ht) e2 (by rw [e3, List.append_nil]) e4
      · obtain ⟨d2, e1, e2, e3, e4, e5⟩ := s4 rfl rfl
        rw [hs] at e1; cases e1
        rcases e2.sound hd with ⟨es, f1, f2, f3, f4⟩ | ⟨es, zs1, zs2, j, rfl, f2, f3, f4, f5⟩
        · rw [e3, List.nil_append] at f2
          exact ⟨[], [], [], ⟨[], z :: zs, _, rfl, .nil, .key ht f1 f2⟩, by rw [f3, e4, List.append_nil], by rw [f4, e5, List.append_nil], .nil⟩
        · rw [e3, List.nil_append] at f3 f4
          obtain ⟨k', hk', rfl⟩ := (getKey_id hU hw (enciphered_letters f2)).1 f4
          simp only [List.length_append] at hn
          obtain ⟨text, ids, js, ⟨a, b, r2, rfl, i1, i2⟩, i3, i4, i5⟩ := ih (by omega) (AtThing.fresh hk' (d1.stack ++ [j]) d1.plain) f5
          refine ⟨[] ++ text, [k'.id.val] ++ ids, j :: js, ⟨(z :: zs1) ++ a, b, r2, by simp, .cons (.key ht (List.mem_of_getElem? hk') f3 f2) i1, i2⟩, ?_, ?_, .cons ⟨k', hk', rfl⟩ i5⟩
          · rw [i3]; simp [e4]
          · rw [i4]; simp [e5]
      · obtain ⟨d2, e1, e2, e3, e4, k', hk'⟩ := s5 rfl rfl
        rw [hs] at e1; cases e1
        cases zs with
        | nil =>
          simp [decLoop] at hd
          rw [← hd.1]
          exact ⟨[], [], [], ⟨[], [z], _, rfl, .nil, .binary ht⟩, by rw [e3, List.append_nil], by rw [e4, List.append_nil], .nil⟩
        | cons y ys =>
          simp only [decLoop] at hd
          rcases hs2 : decStep U g keys d1 y with d3 | x | _
          · exact absurd hs2 (decStep_in_binary hk' e2)
          · rw [hs2] at hd; simp at hd
          · rw [hs2] at hd; simp at hd

theorem ReadsOne.run {U : Unicode} (hU : U.Lawful) {g : Nat} (hg : g ≠ 0) {keys : List Key} (hw : WellFormed keys) {r r' : Reader} {z t : Runes} {i : List Runes} (h : ReadsOne g keys r z t i r')
    {d : DState} (hd : AtThing keys d r) :
    ∃ d' js, decLoop U g keys z d = (.ok d', d'.plain) ∧ AtThing keys d' r' ∧ d'.plain = d.plain ++ t ∧ d'.stack = d.stack ++ js ∧ Named keys js i := by
  have one : ∀ {z : Rune} {d' : DState}, decStep U g keys d z = .ok d' → decLoop U g keys [z] d = (.ok d', d'.plain) := by
    intro z d' h; simp only [decLoop, h]
  cases h with
  | char ht hc =>
    obtain ⟨d', e1, e2, e3, e4, -⟩ := (hd.step (U := U) hU hg ht).1 _ hc
    exact ⟨d', [], one e1, e2, e3, by rw [e4, List.append_nil], .nil⟩
  | switch ht =>
    obtain ⟨d', e1, e2, e3, e4⟩ := (hd.step (U := U) hU hg ht).2.1 rfl
    exact ⟨d', [], one e1, e2, by rw [e3, List.append_nil], by rw [e4, List.append_nil], .nil⟩
  | case ht =>
    obtain ⟨d', e1, e2, e3, e4⟩ := (hd.step (U := U) hU hg ht).2.2.1 rfl rfl
    exact ⟨d', [], one e1, e2, by rw [e3, List.append_nil], by rw [e4, List.append_nil], .nil⟩
  | @key p z pad zs small k ht hk hl hen =>
    obtain ⟨d', e1, e2, e3, e4, e5⟩ := (hd.step (U := U) hU hg ht).2.2.2.1 rfl rfl
    obtain ⟨j, hj⟩ := List.mem_iff_getElem?.1 hk
    have := e2.complete (U := U) e3 hen hl (hw.getKey hU hj)
    refine ⟨_, [j], ?_, AtThing.fresh hj (d'.stack ++ [j]) d'.plain, by simp [e4], by simp [e5], .cons ⟨k, hj, rfl⟩ .nil⟩
    simp only [decLoop, e1]
    exact this

theorem ReadsOn.run {U : Unicode} (hU : U.Lawful) {g : Nat} (hg : g ≠ 0) {keys : List Key} (hw : WellFormed keys) {r r' : Reader} {z t : Runes} {i : List Runes} (h : ReadsOn g keys r z t i r') :
    ∀ {d : DState}, AtThing keys d r →
    ∃ d' js, decLoop U g keys z d = (.ok d', d'.plain) ∧ AtThing keys d' r' ∧ d'.plain = d.plain ++ t ∧ d'.stack = d.stack ++ js ∧ Named keys js i := by
  induction h with
  | nil => intro d hd; exact ⟨d, [], rfl, hd, by simp, by simp, .nil⟩
  | cons h1 _ ih =>
    intro d hd
    obtain ⟨d1, js1, e1, e2, e3, e4, e5⟩ := h1.run hU hg hw hd
    obtain ⟨d2, js2, f1, f2, f3, f4, f5⟩ := ih e2
    exact ⟨d2, js1 ++ js2, by rw [decLoop_app e1]; exact f1, f2, by rw [f3, e3, List.append_assoc], by rw [f4, e4, List.append_assoc], List.rel_append e5 f5⟩

theorem MayEnd.run {U : Unicode} (hU : U.Lawful) {g : Nat} (hg : g ≠ 0) {keys : List Key} {r : Reader} {z : Runes} (h : MayEnd g r z) {d : DState} (hd : AtThing keys d r) :
    ∃ d', decLoop U g keys z d = (.ok d', d'.plain) ∧ d'.plain = d.plain ∧ d'.stack = d.stack := by
  cases h with
  | nothing => exact ⟨d, rfl, rfl, rfl⟩
  | @key p z pad es zs small ht hen hl =>
    obtain ⟨d', e1, e2, e3, e4, e5⟩ := (hd.step (U := U) hU hg ht).2.2.2.1 rfl rfl
    obtain ⟨d2, pad', f1, f2, f3, f4, f5, f6⟩ := e2.cut (U := U) hen (by rw [e3]; simpa using hl)
    refine ⟨d2, ?_, by rw [f4, e4], by rw [f5, e5]⟩
    simp only [decLoop, e1]
    exact f1
  | binary ht =>
    obtain ⟨d', e1, e2, e3, e4, -⟩ := (hd.step (U := U) hU hg ht).2.2.2.2 rfl rfl
    exact ⟨d', by simp only [decLoop, e1], e3, e4⟩

/-- the loop stops at the first letter that cannot be read -/
theorem decLoop_err {U : Unicode} {g : Nat} {keys : List Key} : ∀ {ct : Runes} {d : DState} {e : Err} {p : Runes}, decLoop U g keys ct d = (.err e, p) →
    ∃ a c b d1, ct = a ++ c :: b ∧ decLoop U g keys a d = (.ok d1, p) ∧ decStep U g keys d1 c = .err e := by
  intro ct
  induction ct with
  | nil => intro d e p h; simp [decLoop] at h
  | cons c cs ih =>
    intro d e p h
    simp only [decLoop] at h
    rcases hs : decStep U g keys d c with d1 | x | _
    · rw [hs] at h
      obtain ⟨a, c', b, d2, rfl, h2, h3⟩ := ih h
      exact ⟨c :: a, c', b, d2, rfl, by simp only [decLoop, hs]; exact h2, h3⟩
    · rw [hs] at h
      simp only [Prod.mk.injEq, Outcome.err.injEq] at h
      obtain ⟨rfl, rfl⟩ := h
      exact ⟨[], c, cs, d, rfl, rfl, hs⟩
    · rw [hs] at h; simp at h

/-- the coder does not look at the text it has found -/
theorem decodeCharacter_frame (U : Unicode) (st : CState) (e : Rune) (x : Runes) :
    decodeCharacter U st e x = match decodeCharacter U st e [] with
      | .ok (s, u) => .ok (s, x ++ u)
      | .err y => .err y
      | .panic => .panic := by
  unfold decodeCharacter
  dsimp only
  generalize (if st.gotChangeKeyChar = true then ({ st with gotChangeKeyChar := false, keyChange := true } : CState) else st) = st1
  by_cases h1 : e < 65 ∨ e > 90
  · rw [if_pos h1, if_pos h1]
  rw [if_neg h1, if_neg h1]
  by_cases h2 : st.binary = true
  · rw [if_pos h2, if_pos h2]
  rw [if_neg h2, if_neg h2]
  by_cases h3 : st1.keyChange = true
  · rw [if_pos h3, if_pos h3]; simp
  rw [if_neg h3, if_neg h3]
  rcases characterTables[st1.table]? with _ | tab
  · rfl
  dsimp only
  by_cases h4 : (e - 65).toNat ≥ tab.length
  · rw [if_pos h4, if_pos h4]
  rw [if_neg h4, if_neg h4]
  rcases tab[(e - 65).toNat]? with _ | c
  · rfl
  dsimp only
  by_cases h5 : c = specialOpChar
  · rw [if_pos h5, if_pos h5]
    by_cases q1 : st1.table = primaryTable
    · rw [if_pos q1, if_pos q1]
      by_cases q2 : e = nextTableChar
      · rw [if_pos q2, if_pos q2]; simp
      · rw [if_neg q2, if_neg q2]
    rw [if_neg q1, if_neg q1]
    by_cases q3 : st1.table = secondaryTable
    swap
    · rw [if_neg q3, if_neg q3]
    rw [if_pos q3, if_pos q3]
    by_cases q4 : e = binaryToggleChar
    · rw [if_pos q4, if_pos q4]
      rcases toggleBinary st1 none with ⟨b1, b2⟩ | y | _ <;> simp
    rw [if_neg q4, if_neg q4]
    by_cases q5 : e = caseToggleChar
    · rw [if_pos q5, if_pos q5]
      rcases toggleCase st1 none with ⟨b1, b2⟩ | y | _ <;> simp
    rw [if_neg q5, if_neg q5]
    by_cases q6 : e = changeKeyChar
    · rw [if_pos q6, if_pos q6]; simp
    rw [if_neg q6, if_neg q6]
    by_cases q7 : e = nextTableChar
    · rw [if_pos q7, if_pos q7]; simp
    · rw [if_neg q7, if_neg q7]
  · rw [if_neg h5, if_neg h5]
    rfl

/-- a step, and the text found so far -/
theorem decStep_frame (U : Unicode) (g : Nat) (keys : List Key) (d : DState) (c : Rune) (x : Runes) :
    decStep U g keys { d with plain := x } c = match decStep U g keys { d with plain := [] } c with
      | .ok d' => .ok { d' with plain := x ++ d'.plain }
      | .err y => .err y
      | .panic => .panic := by
  unfold decStep
  dsimp only
  rcases keys[d.key]? with _ | k
  · rfl
  dsimp only
  by_cases hlt : d.ki ≥ k.runes.length
  · rw [if_pos hlt, if_pos hlt]
  rw [if_neg hlt, if_neg hlt]
  rcases k.runes[d.ki]? with _ | kr
  · rfl
  dsimp only
  rcases trigraph kr c with e | y | _
  · dsimp only
    rw [decodeCharacter_frame U d.st e x]
    rcases decodeCharacter U d.st e [] with ⟨s, u⟩ | y | _
    · dsimp only
      split
      · split
        · rcases getKey U keys (d.nextKey ++ [e]) with _ | j <;> rfl
        · rfl
      · rfl
    · rfl
    · rfl
  · rfl
  · rfl

/-- the loop, and the text found so far -/
theorem decLoop_frame (U : Unicode) (g : Nat) (keys : List Key) : ∀ (ct : Runes) (d : DState) (x : Runes),
    decLoop U g keys ct { d with plain := x } = match decLoop U g keys ct { d with plain := [] } with
      | (.ok d', p) => (.ok { d' with plain := x ++ p }, x ++ p)
      | (.err y, p) => (.err y, x ++ p)
      | (.panic, p) => (.panic, x ++ p) := by
  intro ct
  induction ct with
  | nil => intro d x; simp [decLoop]
  | cons c cs ih =>
    intro d x
    simp only [decLoop]
    rw [decStep_frame U g keys d c x]
    rcases decStep U g keys { d with plain := [] } c with d1 | y | _
    · dsimp only
      rw [ih d1 (x ++ d1.plain)]
      have := ih d1 d1.plain
      rw [show ({ d1 with plain := d1.plain } : DState) = d1 from rfl] at this
      rw [this]
      rcases decLoop U g keys cs { d1 with plain := [] } with ⟨d2 | y | _, p⟩ <;> simp
    · simp
    · simp

theorem ByHand.run {U : Unicode} (hU : U.Lawful) {g : Nat} (hg : g ≠ 0) {keys : List Key} (hw : WellFormed keys) {r : Reader} {z t : Runes} {i : List Runes} (h : ByHand g keys r z t i)
    {d : DState} (hd : AtThing keys d r) :
    ∃ d' js, decLoop U g keys z d = (.ok d', d'.plain) ∧ d'.plain = d.plain ++ t ∧ d'.stack = d.stack ++ js ∧ Named keys js i := by
  obtain ⟨a, b, r', rfl, h1, h2⟩ := h
  obtain ⟨d1, js, e1, e2, e3, e4, e5⟩ := h1.run hU hg hw hd
  obtain ⟨d2, f1, f2, f3⟩ := h2.run (U := U) hU hg e2
  exact ⟨d2, js, by rw [decLoop_app e1]; exact f1, by rw [f2, e3], by rw [f3, e4], e5⟩

theorem Named.mem {keys : List Key} (hw : WellFormed keys) : ∀ {js : List Nat} {ids : List Runes}, Named keys js ids → ∀ {j : Nat} {k : Key}, keys[j]? = some k →
    (j ∈ js ↔ k.id.val ∈ ids) := by
  intro js ids h
  induction h with
  | nil => simp
  | @cons a b js ids h1 h2 ih =>
    intro j k hk
    obtain ⟨k', hk', rfl⟩ := h1
    simp only [List.mem_cons, ih hk]
    constructor
    · rintro (rfl | h)
      · rw [hk] at hk'; cases hk'; exact Or.inl rfl
      · exact Or.inr h
    · rintro (h | h)
      · exact Or.inl (hw.inj hk hk' h)
      · exact Or.inr h

theorem Named.unique {keys : List Key} : ∀ {js : List Nat} {ids ids' : List Runes}, Named keys js ids → Named keys js ids' → ids = ids' := by
  intro js ids ids' h
  induction h generalizing ids' with
  | nil => intro h'; cases h'; rfl
  | cons h1 h2 ih =>
    intro h'
    cases h' with
    | cons g1 g2 =>
      obtain ⟨k, hk, rfl⟩ := h1
      obtain ⟨k', hk', rfl⟩ := g1
      rw [hk] at hk'; cases hk'
      rw [ih g2]

/-- the marks left by the loop, by id -/
theorem marks_by_id {keys : List Key} (hw : WellFormed keys) {js : List Nat} {ids : List Runes} (h : Named keys js ids) :
    js.foldl (fun ks j => setUsed ks j true) keys = keys.map (fun x => { x with used := x.used || decide (x.id.val ∈ ids) }) := by
  apply List.ext_getElem?
  intro j
  rw [foldl_setUsed, List.getElem?_map]
  rcases hk : keys[j]? with _ | k
  · rfl
  · simp only [Option.map_some]
    have := h.mem hw hk
    by_cases hj : j ∈ js
    · rw [decide_eq_true hj, decide_eq_true (this.1 hj)]
    · rw [decide_eq_false hj, decide_eq_false (fun hh => hj (this.2 hh))]

theorem WellFormed.getKey_named {U : Unicode} (hU : U.Lawful) {keys : List Key} (hw : WellFormed keys) {id : Runes} {k : Key} {j : Nat} (hid : IdOf U id k)
    (hj : keys[j]? = some k) : K431.getKey U keys id = some j := by
  rw [← hw.getKey hU hj]
  have h1 : lookupName U id = k.id.val := hid
  have h2 : lookupName U k.id.val = k.id.val := lookupName_letters hU (hw.letters k (List.mem_of_getElem? hj))
  unfold K431.getKey
  rw [h1, h2]

theorem decipher_run {U : Unicode} (hU : U.Lawful) {f : Runes} {inst : Inst} {m : Msg} (hw : WellFormed inst.keys) {k : Key} {j : Nat} (hj : inst.keys[j]? = some k)
    (hid : IdOf U m.keyId.val k) (hkl : m.keyId.val.length = inst.groupSize) (hl : inst.groupSize ≤ m.cipherText.length) :
    decipher U f inst m = match decLoop U inst.groupSize inst.keys m.cipherText ⟨j, 0, [], newState, [j], []⟩ with
      | (.ok d, plain) => (.ok (), { inst with keys := d.stack.foldl (fun ks j => setUsed ks j true) inst.keys }, { withId f m with plainText := plain })
      | (.err e, plain) => (.err e, inst, { withId f m with plainText := plain })
      | (.panic, plain) => (.panic, inst, { withId f m with plainText := plain }) := by
  unfold decipher
  simp only [(withId_fields f m).2.2.1, (withId_fields f m).2.2.2]
  rw [if_neg (by simp [hkl]), if_neg (by omega), hw.getKey_named hU hid hj]
  dsimp only
  rcases decLoop U inst.groupSize inst.keys m.cipherText ⟨j, 0, [], newState, [j], []⟩ with ⟨d | e | _, p⟩ <;> rfl

/-- what a successful `Decipher` has checked -/
theorem decipher_ok_key {U : Unicode} (hU : U.Lawful) {f : Runes} {inst inst' : Inst} {m m' : Msg} (hw : WellFormed inst.keys) (h : decipher U f inst m = (.ok (), inst', m')) :
    m.keyId.val.length = inst.groupSize ∧ inst.groupSize ≤ m.cipherText.length ∧ ∃ k ∈ inst.keys, IdOf U m.keyId.val k := by
  unfold decipher at h
  simp only [(withId_fields f m).2.2.1, (withId_fields f m).2.2.2] at h
  split at h
  · simp at h
  rename_i h1
  split at h
  · simp at h
  rename_i h2
  refine ⟨by simpa using h1, by omega, ?_⟩
  split at h
  · simp at h
  rename_i i hi
  obtain ⟨k, hk, hn, -⟩ := getKey_some hi
  have hk' := List.mem_of_getElem? hk
  refine ⟨k, hk', ?_⟩
  unfold IdOf
  rw [goStr_letters (hw.letters k hk')] at hn
  exact hn.symm

end K431
