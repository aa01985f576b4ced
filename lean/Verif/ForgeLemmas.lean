import Verif.SpecForge
import Verif.EncEnough
import Verif.ReadmeLemmas
import Verif.TraceLemmas
import Verif.AirLemmas

/-!
# Lemmas: altered ciphertexts
-/

namespace K431
open Spec

theorem letterFor_codes {c : Int} (h : c ∈ firstTable) : Codes false (letterFor c) c := by
  have : ∀ c ∈ firstTable, Codes false (letterFor c) c := by decide
  exact this c h

theorem letterFor_word {U : Unicode} (hU : U.Lawful) {c : Rune} (hc : c ∈ firstTable) :
    ∃ i : Nat, findInTables (U.toUpper c) 0 characterTables = some (0, i) ∧ needsToggle U false c = false ∧ (i : Int) + 65 = letterFor c := by
  have h0 : ∀ x ∈ firstTable, x ∈ Spec.firstTable := by decide
  obtain ⟨i, h1, h2⟩ := word_first hU (h0 c hc)
  refine ⟨i, h1, h2, ?_⟩
  have h3 : ∀ x ∈ firstTable, (x ∈ capitals ∨ x ∈ neutrals) ∧ findInTables x 0 characterTables = some (0, (letterFor x - 65).toNat) ∧ 65 ≤ letterFor x := by decide
  obtain ⟨h4, h5, h6⟩ := h3 c hc
  have h7 : U.toUpper c = c := by
    rcases h4 with h | h
    · exact (hU.capital c h).2.2.1
    · exact (hU.neutral c h).2.2.1
  rw [h7, h5] at h1
  simp only [Option.some.injEq, Prod.mk.injEq, true_and] at h1
  omega

/-- the loop on text of the first line, as long as one pad suffices -/
theorem encLoop_onePad {U : Unicode} (hU : U.Lawful) {g : Nat} {r : List Runes} : ∀ (text : Runes) (s : LoopState), LoopOk s → s.st.table = 0 → s.st.shift = false →
    (∀ c ∈ text, c ∈ firstTable) → s.cur.enc.length + text.length + g + 2 ≤ keyLenAt s.keys s.cur.key →
    ∃ s', encLoop U g r text s = (.ok (), s') ∧ s'.keys = s.keys ∧ s'.chunks = s.chunks ∧ s'.cur = ⟨s.cur.enc ++ text.map letterFor, s.cur.key⟩ := by
  intro text
  induction text with
  | nil => intro s _ _ _ _ _; exact ⟨s, rfl, rfl, rfl, by simp⟩
  | cons c cs ih =>
    intro s hs ht hsh hc hl
    obtain ⟨i, hf, hn, hi⟩ := letterFor_word hU (hc c (by simp))
    have hx : ¬ keyExhausted g s = true := by
      rw [keyExhausted_iff hs]
      simp only [List.length_cons] at hl
      unfold capAt
      omega
    have hw : word U s.st.table s.st.shift c 0 i = [letterFor c] := by
      rw [ht, hsh]; simp [word, hn, sw, hi]
    rw [encLoop_cons U hf hs (by rw [if_neg hx])]
    obtain ⟨s', h1, h2, h3, h4⟩ := ih (afterChar U s c 0 i) (hs.char hf) rfl (by simp [afterChar, hsh, hn]) (fun x hx => hc x (by simp [hx]))
      (by simp only [afterChar, hw, List.length_append, List.length_cons, List.length_nil] at hl ⊢; omega)
    refine ⟨s', h1, h2, h3, ?_⟩
    rw [h4]
    simp [afterChar, hw]

theorem cipherChunk_letters : ∀ {pad text out : Runes}, cipherChunk pad text = (.ok (), out) → Enciphered pad text out
  | pad, [], out, h => by
    have : out = [] := by cases pad <;> simp [cipherChunk] at h <;> exact h
    subst this
    cases pad <;> trivial
  | [], _ :: _, _, h => by simp [cipherChunk] at h
  | k :: ks, e :: es, out, h => by
    simp only [cipherChunk] at h
    rcases ht : trigraph k e with z | x | _ <;> rw [ht] at h
    · simp only [Prod.mk.injEq] at h
      obtain ⟨h1, rfl⟩ := h
      exact ⟨(trigraph_ok_iff _ _ _).1 ht, cipherChunk_letters (by rw [← h1])⟩
    · simp at h
    · simp at h

theorem enciphered_split : ∀ {a b pad z : Runes}, Enciphered pad (a ++ b) z → ∃ z1 z2, z = z1 ++ z2 ∧ Enciphered pad a z1 ∧ Enciphered (pad.drop a.length) b z2
  | [], b, pad, z, h => ⟨[], z, rfl, by cases pad <;> trivial, by simpa using h⟩
  | e :: a, b, [], z, h => by cases z <;> simp [Enciphered] at h
  | e :: a, b, p :: pad, [], h => by simp [Enciphered] at h
  | e :: a, b, p :: pad, z :: zs, h => by
    obtain ⟨z1, z2, rfl, h1, h2⟩ := enciphered_split (a := a) h.2
    exact ⟨z :: z1, z2, rfl, ⟨h.1, h1⟩, by simpa using h2⟩

/-- the forged ciphertext is the text wanted, enciphered with the same pad -/
theorem forge_enciphered : ∀ {t w rest pad z : Runes}, t.length = w.length → (∀ c ∈ w, c ∈ firstTable) → Enciphered pad (t.map letterFor ++ rest) z →
    Enciphered pad (w.map letterFor ++ rest) (forge t w z)
  | [], [], rest, pad, z, _, _, h => by simpa [forge] using h
  | [], _ :: _, _, _, _, hl, _, _ => by simp at hl
  | _ :: _, [], _, _, _, hl, _, _ => by simp at hl
  | t :: ts, w :: ws, rest, [], z, _, _, h => by cases z <;> simp [Enciphered] at h
  | t :: ts, w :: ws, rest, p :: pad, [], _, _, h => by simp [Enciphered] at h
  | t :: ts, w :: ws, rest, p :: pad, z :: zs, hl, hw, h => by
    obtain ⟨h1, h2⟩ := h
    refine ⟨?_, forge_enciphered (by simpa using hl) (fun c hc => hw c (by simp [hc])) h2⟩
    obtain ⟨hc, -⟩ := letterFor_codes (hw w (by simp))
    revert h1 hc
    simp only [Trigraph, IsLetter, pos]
    omega

theorem forge_length : ∀ (t w z : Runes), (forge t w z).length = z.length
  | [], _, _ => by simp [forge]
  | _ :: _, [], _ => by simp [forge]
  | _ :: _, _ :: _, [] => by simp [forge]
  | _ :: ts, _ :: ws, _ :: zs => by simp [forge, forge_length ts ws zs]

/-- letters of the first line are read -/
theorem readsOn_first {g : Nat} {keys : List Key} : ∀ {w pad z : Runes}, (∀ c ∈ w, c ∈ firstTable) → Enciphered pad (w.map letterFor) z →
    ReadsOn g keys (Reader.fresh pad) z w [] (Reader.fresh (pad.drop w.length))
  | [], pad, z, _, h => by
    have : z = [] := by cases z with
      | nil => rfl
      | cons a b => cases pad <;> simp [Enciphered] at h
    subst this
    exact .nil
  | c :: w, [], z, _, h => by cases z <;> simp [Enciphered] at h
  | c :: w, p :: pad, [], _, h => by simp [Enciphered] at h
  | c :: w, p :: pad, z :: zs, hw, h => by
    have h1 : ReadsOne g keys ⟨p :: pad, false, false⟩ [z] [c] [] ⟨pad, false, false⟩ := .char (small := false) h.1 (letterFor_codes (hw c (by simp)))
    have h2 := readsOn_first (g := g) (keys := keys) (w := w) (fun x hx => hw x (by simp [hx])) h.2
    exact .cons (t := [c]) (i := []) h1 h2

/-! ## What comes before the alteration -/

theorem encLoop_append (U : Unicode) (g : Nat) (r : List Runes) (b : Runes) : ∀ (a : Runes) (s : LoopState),
    encLoop U g r (a ++ b) s = match encLoop U g r a s with
      | (.ok _, s') => encLoop U g r b s'
      | x => x := by
  intro a
  induction a with
  | nil => intro s; rfl
  | cons c cs ih =>
    intro s
    simp only [List.cons_append, encLoop]
    rcases (if keyExhausted g s then nextChunk U g r s else (.ok (), s)) with ⟨_ | _ | _, s1⟩
    · dsimp only
      rcases encodeCharacter U s1.st c s1.cur.enc with ⟨st, enc⟩ | _ | _
      · exact ih _
      · rfl
      · rfl
    · rfl
    · rfl

/-- what is written stays -/
theorem encLoop_extends {U : Unicode} {g : Nat} {r : List Runes} {b : Runes} {s s' : LoopState} (hs : LoopOk s) (h : encLoop U g r b s = (.ok (), s')) :
    ∃ w more, s'.chunks ++ [s'.cur] = s.chunks ++ [{ s.cur with enc := s.cur.enc ++ w }] ++ more := by
  have := (encLoop_inv_ok (U := U) (g := g) (r := r) (fun _ s' => ∃ w more, s'.chunks ++ [s'.cur] = s.chunks ++ [{ s.cur with enc := s.cur.enc ++ w }] ++ more)
    (fun d a a' hp hok hn => by
      obtain ⟨w, more, hm⟩ := hp
      obtain ⟨j, k, -, -, rfl⟩ := nextChunk_ok hok hn
      dsimp only
      rcases List.eq_nil_or_concat more with rfl | ⟨more, x, rfl⟩
      · rw [List.append_nil] at hm
        obtain ⟨h1, h2⟩ := List.append_inj' hm rfl
        simp only [List.cons.injEq, and_true] at h2
        exact ⟨w ++ sw a.st.table 1 ++ [89] ++ k.id.val, [⟨[], j⟩], by rw [h1, h2]; simp⟩
      · rw [List.concat_eq_append, ← List.append_assoc] at hm
        obtain ⟨h1, -⟩ := List.append_inj' hm rfl
        exact ⟨w, more ++ [{ a.cur with enc := a.cur.enc ++ sw a.st.table 1 ++ [89] ++ k.id.val }, ⟨[], j⟩], by rw [h1]; simp⟩)
    (fun d a c t i hp hok hf => by
      obtain ⟨w, more, hm⟩ := hp
      simp only [afterChar]
      rcases List.eq_nil_or_concat more with rfl | ⟨more, x, rfl⟩
      · rw [List.append_nil] at hm
        obtain ⟨h1, h2⟩ := List.append_inj' hm rfl
        simp only [List.cons.injEq, and_true] at h2
        exact ⟨w ++ word U a.st.table a.st.shift c t i, [], by rw [h1, h2]; simp⟩
      · rw [List.concat_eq_append, ← List.append_assoc] at hm
        obtain ⟨h1, -⟩ := List.append_inj' hm rfl
        exact ⟨w, more ++ [{ a.cur with enc := a.cur.enc ++ word U a.st.table a.st.shift c t i }], by rw [h1]; simp⟩)
    ⟨[], [], by simp⟩ hs h).2
  exact this

theorem extends_last {l A more : List Chunk} {x c : Chunk} {w : Runes} (h : l ++ [x] = A ++ [{ c with enc := c.enc ++ w }] ++ more) (z : Runes) :
    ∃ w' more', l ++ [{ x with enc := x.enc ++ z }] = A ++ [{ c with enc := c.enc ++ w' }] ++ more' := by
  rcases List.eq_nil_or_concat more with rfl | ⟨more, y, rfl⟩
  · rw [List.append_nil] at h
    obtain ⟨h1, h2⟩ := List.append_inj' h rfl
    simp only [List.cons.injEq, and_true] at h2
    exact ⟨w ++ z, [], by rw [h1, h2]; simp⟩
  · rw [List.concat_eq_append, ← List.append_assoc] at h
    obtain ⟨h1, -⟩ := List.append_inj' h rfl
    exact ⟨w, more ++ [{ x with enc := x.enc ++ z }], by rw [h1]; simp⟩

theorem ciphered_prefix {keys : List Key} {A more : List Chunk} {c : Chunk} {w out : Runes} (h : cipherChunks keys (A ++ [{ c with enc := c.enc ++ w }] ++ more) = (.ok (), out)) :
    ∃ o rest, cipherChunks keys (A ++ [c]) = (.ok (), o) ∧ out = o ++ rest := by
  rw [cipherChunks_append] at h
  obtain ⟨o, q, h1, -, rfl⟩ := h
  rw [cipherChunks_append] at h1
  obtain ⟨o1, o2, h1, h2, rfl⟩ := h1
  rw [cipherChunks_one] at h2
  obtain ⟨k, hk, hl, h3⟩ := h2
  obtain ⟨p1, p2, e1, -, rfl⟩ := cipherChunk_append _ _ _ _ h3
  refine ⟨o1 ++ p1, p2 ++ q, ?_, by simp⟩
  rw [cipherChunks_append]
  refine ⟨o1, p1, h1, ?_, rfl⟩
  rw [cipherChunks_one]
  simp only [List.length_append] at hl
  exact ⟨k, hk, by omega, e1⟩

/-- what has been read stays -/
theorem decLoop_prefix {U : Unicode} {g : Nat} {keys : List Key} : ∀ (c : Runes) (d : DState), d.plain <+: (decLoop U g keys c d).2
  | [], d => List.prefix_refl _
  | x :: xs, d => by
    simp only [decLoop]
    rcases hs : decStep U g keys d x with d' | _ | _
    · dsimp only
      exact List.IsPrefix.trans (decStep_prefix hs) (decLoop_prefix xs d')
    · exact List.prefix_refl _
    · exact List.prefix_refl _

end K431
