import Verif.CipherLemmas
import Mathlib.Data.List.Nodup

/-! # Helper lemmas for perfect secrecy -/

namespace K431
open Spec

theorem mem_letters26 (c : Int) : c ∈ capitals.take 26 ↔ IsLetter c := by
  constructor
  · intro h
    have : ∀ c ∈ capitals.take 26, IsLetter c := by decide
    exact this c h
  · intro h
    unfold IsLetter at h
    obtain ⟨n, hn, rfl⟩ : ∃ n : Nat, n < 26 ∧ c = (n : Int) + 65 := ⟨(c - 65).toNat, by omega, by omega⟩
    have : ∀ n < 26, ((n : Nat) : Int) + 65 ∈ capitals.take 26 := by decide
    exact this n hn

theorem mem_allWords : ∀ (n : Nat) (w : List Int),
    w ∈ allWords n ↔ w.length = n ∧ ∀ c ∈ w, IsLetter c := by
  intro n
  induction n with
  | zero => intro w; cases w <;> simp [allWords]
  | succ n ih =>
    intro w
    simp only [allWords, List.mem_flatMap, List.mem_map]
    constructor
    · rintro ⟨c, hc, w', hw, rfl⟩
      obtain ⟨h1, h2⟩ := (ih w').1 hw
      refine ⟨by simp [h1], ?_⟩
      intro x hx
      rcases List.mem_cons.1 hx with rfl | hx
      · exact (mem_letters26 _).1 hc
      · exact h2 x hx
    · rintro ⟨h1, h2⟩
      cases w with
      | nil => simp at h1
      | cons c w' =>
        exact ⟨c, (mem_letters26 _).2 (h2 c (by simp)), w',
          (ih w').2 ⟨by simpa using h1, fun x hx => h2 x (by simp [hx])⟩, rfl⟩

theorem length_allWords : ∀ n, (allWords n).length = 26 ^ n := by
  intro n
  induction n with
  | zero => rfl
  | succ n ih =>
    have hl : (capitals.take 26).length = 26 := by decide
    simp only [allWords, List.length_flatMap, List.length_map, ih]
    rw [List.map_const', hl, List.sum_replicate_nat, Nat.pow_succ, Nat.mul_comm]

/-- the key that turns a text letter into a ciphertext letter exists and is unique -/
theorem key_for_letter {e z : Int} (he : IsLetter e) (hz : IsLetter z) :
    ∃ k, Trigraph k e z ∧ ∀ k', Trigraph k' e z → k' = k := by
  obtain ⟨k, hT⟩ := trigraph_total he hz
  refine ⟨k, hT.swap13.swap23, ?_⟩
  · intro k' hk'
    exact hk'.swap12.swap23.unique hT

theorem nodup_allWords : ∀ n, (allWords n).Nodup := by
  intro n
  induction n with
  | zero => simp [allWords]
  | succ n ih =>
    have hnd : (capitals.take 26).Nodup := by decide
    simp only [allWords]
    generalize capitals.take 26 = l at hnd
    induction l with
    | nil => simp
    | cons c cs ih2 =>
      simp only [List.flatMap_cons]
      rw [List.nodup_append]
      refine ⟨?_, ih2 (List.nodup_cons.1 hnd).2, ?_⟩
      · exact List.Nodup.map (fun a b h => by simpa using h) ih
      · intro a ha b hb
        simp only [List.mem_map] at ha
        simp only [List.mem_flatMap, List.mem_map] at hb
        obtain ⟨w, _, rfl⟩ := ha
        obtain ⟨c', hc', w', _, rfl⟩ := hb
        intro h
        simp only [List.cons.injEq] at h
        exact (List.nodup_cons.1 hnd).1 (h.1 ▸ hc')

end K431
