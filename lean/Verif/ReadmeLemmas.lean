import Verif.ReadmeCodes
import Verif.LegendLemmas

/-!
# Lemmas: writing with a table, and filling up
-/

namespace K431
open Spec

/-- a letter is one of the 26 -/
theorem letter_cases {m : Int} (h : IsLetter m) : ∃ n < 26, m = 65 + (n : Nat) := by
  unfold IsLetter at h
  exact ⟨(m - 65).toNat, by omega, by omega⟩

/-- a way of looking up that is the trigraph -/
def LooksRight (look : Int → Int → Option Int) : Prop := ∀ {m k : Int}, IsLetter m → IsLetter k → ∀ z, look m k = some z ↔ Trigraph m k z

theorem byTable_good {look : Int → Int → Option Int} (hl : LooksRight look) : ∀ {text pad cipher : Runes} (mix : List Bool), Enciphered pad text cipher →
    byTable look mix pad text = some cipher := by
  intro text
  induction text with
  | nil => intro pad cipher mix h; cases pad <;> cases cipher <;> simp_all [byTable, Enciphered]
  | cons e es ih =>
    intro pad cipher mix h
    cases pad with
    | nil => simp [Enciphered] at h
    | cons p pad =>
      cases cipher with
      | nil => simp [Enciphered] at h
      | cons z zs =>
        obtain ⟨hT, h⟩ := h
        have h3 : look p e = some z := (hl hT.1 hT.2.1 z).2 hT
        have h4 : look e p = some z := (hl hT.2.1 hT.1 z).2 ⟨hT.2.1, hT.1, hT.2.2.1, by have := hT.2.2.2; omega⟩
        simp only [byTable, ih mix.tail h, h3, h4, ite_self]
        rfl

theorem enciphered_swap : ∀ {pad text cipher : Runes}, Enciphered pad text cipher → Enciphered pad cipher text := by
  intro pad text
  induction text generalizing pad with
  | nil => intro cipher h; cases pad <;> cases cipher <;> simp_all [Enciphered]
  | cons e es ih =>
    intro cipher h
    cases pad with
    | nil => simp [Enciphered] at h
    | cons p pad =>
      cases cipher with
      | nil => simp [Enciphered] at h
      | cons z zs => exact ⟨trigraph_swap h.1, ih h.2⟩

/-- letter by letter, `cipherChunk` writes the trigraphs -/
theorem cipherChunk_enciphered : ∀ (text pad : Runes), (∀ c ∈ pad, IsLetter c) → (∀ c ∈ text, IsLetter c) → text.length ≤ pad.length →
    ∃ cipher, cipherChunk pad text = (.ok (), cipher) ∧ Enciphered pad text cipher := by
  intro text
  induction text with
  | nil => intro pad _ _ _; exact ⟨[], by cases pad <;> rfl, by cases pad <;> trivial⟩
  | cons e es ih =>
    intro pad hp ht hlen
    cases pad with
    | nil => simp at hlen
    | cons p pad =>
      obtain ⟨cs, h1, h2⟩ := ih pad (fun c hc => hp c (by simp [hc])) (fun c hc => ht c (by simp [hc])) (by simpa using hlen)
      obtain ⟨z, hz⟩ := trigraph_total (hp p (by simp)) (ht e (by simp))
      exact ⟨z :: cs, by simp [cipherChunk, (trigraph_ok_iff _ _ _).2 hz, h1], hz, h2⟩

/-- Filling up with Z, README.md:150-155: it changes the table back and forth and adds nothing to the text. -/
theorem fill {g : Nat} {keys : List Key} : ∀ (n : Nat) {r : Reader} {zs : Runes}, Enciphered r.pad (List.replicate n switchLetter) zs →
    ∃ r', ReadsOn g keys r zs [] [] r' := by
  intro n
  induction n with
  | zero => intro r zs h; rcases r with ⟨_ | ⟨p, pad⟩, s, l⟩ <;> cases zs <;> simp [Enciphered] at h <;> exact ⟨_, .nil⟩
  | succ n ih =>
    intro r zs h
    rcases r with ⟨_ | ⟨p, pad⟩, s, l⟩
    · simp [List.replicate_succ, Enciphered] at h
    · cases zs with
      | nil => simp [List.replicate_succ, Enciphered] at h
      | cons z zs =>
        rw [List.replicate_succ] at h
        obtain ⟨r', h'⟩ := ih (r := ⟨pad, !s, l⟩) h.2
        exact ⟨r', .cons (t := []) (i := []) (z := [z]) (.switch h.1) h'⟩

theorem ReadsOn.append {g : Nat} {keys : List Key} {r r' r'' : Reader} {a b t u : Runes} {i j : List Runes} (h : ReadsOn g keys r a t i r') (h' : ReadsOn g keys r' b u j r'') :
    ReadsOn g keys r (a ++ b) (t ++ u) (i ++ j) r'' := by
  induction h with
  | nil => exact h'
  | cons h1 _ ih => rw [List.append_assoc, List.append_assoc, List.append_assoc]; exact .cons h1 (ih h')

end K431
