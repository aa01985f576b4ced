import Verif.SpecEnd
import Verif.UniformLemmas
import Verif.LiveLemmas
import Verif.PadLemmas
import Mathlib.Data.Set.Card.Arithmetic
import Mathlib.Tactic.Linarith

/-! # Helper lemmas: random draws come to an end with probability one -/

namespace K431
open Spec

/-! ## Counting -/

/-- of `m^n` and `(m+1)^n` the second gets larger by any factor -/
theorem bernoulli (m : Nat) : ∀ n, m ^ n * (m + n) ≤ m * (m + 1) ^ n := by
  intro n
  induction n with
  | zero => simp
  | succ n ih =>
    have h1 : m * (m + 1) ^ (n + 1) = m * (m + 1) ^ n * (m + 1) := by ring
    have h2 : m ^ (n + 1) * (m + (n + 1)) ≤ m ^ n * (m + n) * (m + 1) := by
      have : m ^ (n + 1) * (m + (n + 1)) = m ^ n * (m * (m + (n + 1))) := by ring
      rw [this, Nat.mul_assoc]
      refine Nat.mul_le_mul_left _ ?_
      nlinarith
    rw [h1]
    exact h2.trans (Nat.mul_le_mul_right _ ih)

theorem factor_le (m q : Nat) (hm : 0 < m) : q * m ^ (m * q) ≤ (m + 1) ^ (m * q) := by
  have h := bernoulli m (m * q)
  have h2 : m * (m ^ (m * q) * (1 + q)) ≤ m * (m + 1) ^ (m * q) := by
    refine le_trans (le_of_eq ?_) h
    ring
  have h3 := Nat.le_of_mul_le_mul_left h2 hm
  refine le_trans ?_ h3
  nlinarith [Nat.zero_le (m ^ (m * q))]

/-- If every tape leading to one of a set has its beginning in another set, and for each beginning there are at most `r`, count. -/
theorem ncard_le_mul {α β : Type} {S : Set α} {T : Set β} (hT : T.Finite) (f : α → β) (hf : ∀ a ∈ S, f a ∈ T) (hS : S.Finite) (r : Nat)
    (hr : ∀ b ∈ T, {a ∈ S | f a = b}.ncard ≤ r) : S.ncard ≤ T.ncard * r := by
  classical
  have h := Finset.card_le_mul_card_image_of_maps_to (f := f) (s := hS.toFinset) (t := hT.toFinset)
    (by intro a ha; simp only [Set.Finite.mem_toFinset] at ha ⊢; exact hf a ha) r (by
      intro b hb
      rw [Set.Finite.mem_toFinset] at hb
      refine le_trans (le_of_eq ?_) (hr b hb)
      rw [Set.ncard_eq_toFinset_card _ (hS.subset (fun a h => h.1))]
      congr 1
      ext a
      simp)
  rw [Set.ncard_eq_toFinset_card _ hS, Set.ncard_eq_toFinset_card _ hT, Nat.mul_comm]
  exact h

/-- all tapes of a length -/
theorem tapes_card (L : Nat) : (Tapes L (fun _ => True)).ncard = (2 ^ 64) ^ L := by
  have hinj : Function.Injective (fun v : Fin L → Fin (2 ^ 64) => List.ofFn (fun i => (v i).val)) := by
    intro v v' h
    have h2 := List.ofFn_injective h
    funext i
    exact Fin.ext (congrFun h2 i)
  have e : Tapes L (fun _ => True) = Set.range (fun v : Fin L → Fin (2 ^ 64) => List.ofFn (fun i => (v i).val)) := by
    ext t
    constructor
    · rintro ⟨hw, hl, -⟩
      subst hl
      exact ⟨fun i => ⟨t[i], hw _ (List.getElem_mem _)⟩, by simp⟩
    · rintro ⟨v, rfl⟩
      refine ⟨?_, by simp, trivial⟩
      intro w hw
      obtain ⟨i, rfl⟩ := (List.mem_ofFn' _ _).1 hw
      exact (v i).isLt
  rw [e, ← Set.image_univ, Set.ncard_image_of_injective _ hinj, Set.ncard_univ]
  simp

theorem words_take {t : Tape} (h : Words t) (n : Nat) : Words (t.take n) := fun w hw => h w (List.mem_of_mem_take hw)
theorem words_drop {t : Tape} (h : Words t) (n : Nat) : Words (t.drop n) := fun w hw => h w (List.mem_of_mem_drop hw)

/-- A property of tapes that is kept by longer tapes and can always be reached by `c` more words holds with probability one. -/
theorem ends_of_reach {R : Tape → Prop} (c : Nat) (hmono : ∀ t s, R t → R (t ++ s))
    (hreach : ∀ t, Words t → ¬ R t → ∃ u, Words u ∧ u.length ≤ c ∧ R (t ++ u)) : Ends R := by
  -- exactly c words
  have hreach' : ∀ t, Words t → ¬ R t → ∃ u, Words u ∧ u.length = c ∧ R (t ++ u) := by
    intro t hw hn
    obtain ⟨u, h1, h2, h3⟩ := hreach t hw hn
    refine ⟨u ++ List.replicate (c - u.length) 0, Words_append.2 ⟨h1, ?_⟩, ?_, ?_⟩
    · intro w hw
      rw [(List.mem_replicate.1 hw).2]; decide
    · simp; omega
    · rw [← List.append_assoc]; exact hmono _ _ h3
  have hpre : ∀ {t : Tape} {n : Nat}, ¬ R t → ¬ R (t.take n) := by
    intro t n h hr
    apply h
    have := hmono _ (t.drop n) hr
    rwa [List.take_append_drop] at this
  have hlong : ∀ L d, (Tapes (L + d) (fun t => ¬ R t)).ncard ≤ (Tapes L (fun t => ¬ R t)).ncard * (2 ^ 64) ^ d := by
    intro L d
    refine ncard_le_mul (tapes_finite _ _) (fun t => t.take L) ?_ (tapes_finite _ _) _ ?_
    · rintro t ⟨hw, hl, hn⟩
      exact ⟨words_take hw _, by simp; omega, hpre hn⟩
    · rintro b ⟨hw, hl, hn⟩
      rw [← tapes_card d]
      refine Set.ncard_le_ncard_of_injOn (fun t => t.drop L) ?_ ?_ (tapes_finite _ _)
      · rintro t ⟨⟨h1, h2, h3⟩, h4⟩
        exact ⟨words_drop h1 _, by simp; omega, trivial⟩
      · rintro t ⟨-, h4⟩ t' ⟨-, h5⟩ h6
        simp only at h4 h5 h6
        rw [← List.take_append_drop L t, ← List.take_append_drop L t', h4, h5, h6]
  have hstep : ∀ L, (Tapes (L + c) (fun t => ¬ R t)).ncard ≤ (Tapes L (fun t => ¬ R t)).ncard * ((2 ^ 64) ^ c - 1) := by
    intro L
    refine ncard_le_mul (tapes_finite _ _) (fun t => t.take L) ?_ (tapes_finite _ _) _ ?_
    · rintro t ⟨hw, hl, hn⟩
      exact ⟨words_take hw _, by simp; omega, hpre hn⟩
    · rintro b ⟨hw, hl, hn⟩
      obtain ⟨u, h1, h2, h3⟩ := hreach' b hw hn
      have hu : u ∈ Tapes c (fun _ => True) := ⟨h1, h2, trivial⟩
      rw [← tapes_card c, ← Set.ncard_sdiff_singleton_of_mem hu]
      refine Set.ncard_le_ncard_of_injOn (fun t => t.drop L) ?_ ?_ ((tapes_finite _ _).subset (fun t h => h.1))
      · rintro t ⟨⟨h1, h2, h6⟩, h4⟩
        refine ⟨⟨words_drop h1 _, by simp; omega, trivial⟩, ?_⟩
        intro hd
        simp only [Set.mem_singleton_iff] at hd h4
        apply h6
        rw [← List.take_append_drop L t, h4, hd]
        exact h3
      · rintro t ⟨-, h4⟩ t' ⟨-, h5⟩ h6
        simp only at h4 h5 h6
        rw [← List.take_append_drop L t, ← List.take_append_drop L t', h4, h5, h6]
  have hpow : ∀ n, (Tapes (n * c) (fun t => ¬ R t)).ncard ≤ ((2 ^ 64) ^ c - 1) ^ n := by
    intro n
    induction n with
    | zero =>
      have h : Tapes (0 * c) (fun t => ¬ R t) ⊆ Tapes (0 * c) (fun _ => True) := fun t h => ⟨h.1, h.2.1, trivial⟩
      have h2 := Set.ncard_le_ncard h (tapes_finite _ _)
      rw [tapes_card] at h2
      simpa using h2
    | succ n ih =>
      rw [Nat.succ_mul, Nat.pow_succ]
      exact (hstep _).trans (Nat.mul_le_mul_right _ ih)
  intro q
  have hp : 0 < (2 ^ 64) ^ c := Nat.pow_pos (by decide)
  obtain ⟨m, hm⟩ : ∃ m, (2 ^ 64) ^ c = m + 1 := ⟨(2 ^ 64) ^ c - 1, by omega⟩
  refine ⟨(m * q + 1) * c, ?_⟩
  intro L hL
  obtain ⟨d, rfl⟩ := Nat.exists_eq_add_of_le hL
  have h1 := hlong ((m * q + 1) * c) d
  have h2 := hpow (m * q + 1)
  have h3 : q * m ^ (m * q + 1) ≤ (m + 1) ^ (m * q + 1) := by
    rcases Nat.eq_zero_or_pos m with rfl | h0
    · simp
    · have := factor_le m q h0
      rw [Nat.pow_succ, Nat.pow_succ, ← Nat.mul_assoc]
      exact Nat.mul_le_mul this (by omega)
  rw [hm] at h2
  simp only [Nat.add_sub_cancel] at h2
  calc q * (Tapes ((m * q + 1) * c + d) (fun t => ¬ R t)).ncard
      ≤ q * (m ^ (m * q + 1) * (2 ^ 64) ^ d) := Nat.mul_le_mul_left _ (h1.trans (Nat.mul_le_mul_right _ h2))
    _ = q * m ^ (m * q + 1) * (2 ^ 64) ^ d := by rw [Nat.mul_assoc]
    _ ≤ (m + 1) ^ (m * q + 1) * (2 ^ 64) ^ d := Nat.mul_le_mul_right _ h3
    _ = (2 ^ 64) ^ ((m * q + 1) * c + d) := by
        rw [← hm, ← Nat.pow_mul, Nat.pow_add, Nat.mul_comm c]

/-- A process that never returns does not end with probability one. -/
theorem not_ends_of_stuck {R : Tape → Prop} (h : ∀ t, ¬ R t) : ¬ Ends R := by
  intro he
  obtain ⟨N, hN⟩ := he 2
  have h1 := hN N (Nat.le_refl _)
  have e : Tapes N (fun t => ¬ R t) = Tapes N (fun _ => True) := by
    unfold Tapes; simp [h]
  rw [e, tapes_card] at h1
  have : 0 < ((2 : Nat) ^ 64) ^ N := Nat.pow_pos (by decide)
  omega

/-! ## Processes that can always be brought to an end -/

/-- `P` can be brought to return by at most `c` more words. -/
def Settles {α : Type} (c : Nat) (P : Tape → Option (α × Tape)) : Prop :=
  ∀ t, Words t → P t = none → ∃ u a, Words u ∧ u.length ≤ c ∧ Acc P (t ++ u) a

/-- `P` reads a stretch of the tape. -/
def Loc {α : Type} (P : Tape → Option (α × Tape)) : Prop := ∀ {t t' : Tape} {a : α}, P t = some (a, t') → ∃ pre, t = pre ++ t' ∧ Acc P pre a

theorem Settles.ends {α : Type} {P : Tape → Option (α × Tape)} {c : Nat} (h : Settles c P) (hl : Loc P) : Ends (fun t => P t ≠ none) := by
  refine ends_of_reach c ?_ ?_
  · intro t s ht
    rcases hp : P t with _ | ⟨a, t'⟩
    · exact absurd hp ht
    obtain ⟨p, rfl, ha⟩ := hl hp
    rw [List.append_assoc, ha]
    simp
  · intro t hw hn
    obtain ⟨u, a, h1, h2, h3⟩ := h t hw (by simpa using hn)
    refine ⟨u, h1, h2, ?_⟩
    rw [h3.self]; simp

theorem Settles.start {α : Type} {P : Tape → Option (α × Tape)} {c : Nat} (h : Settles c P) (hl : Loc P) :
    ∃ u a, Words u ∧ u.length ≤ c ∧ Acc P u a := by
  rcases hp : P [] with _ | ⟨a, t'⟩
  · obtain ⟨u, a, h1, h2, h3⟩ := h [] (by intro w hw; cases hw) hp
    exact ⟨u, a, h1, h2, by simpa using h3⟩
  · obtain ⟨p, h1, h2⟩ := hl hp
    have : p = [] := (List.append_eq_nil_iff.1 h1.symm).1
    subst this
    exact ⟨[], a, (by intro w hw; cases hw), by simp, h2⟩

theorem Settles.mono {α : Type} {P : Tape → Option (α × Tape)} {c d : Nat} (h : Settles c P) (hcd : c ≤ d) : Settles d P := by
  intro t hw hn
  obtain ⟨u, a, h1, h2, h3⟩ := h t hw hn
  exact ⟨u, a, h1, h2.trans hcd, h3⟩

theorem Settles.seq {α β γ : Type} {P : Tape → Option (α × Tape)} {g : α → γ} {Q : γ → Tape → Option (β × Tape)} {c d : Nat}
    (hP : Settles c P) (lP : Loc P) (hQ : ∀ {pre a}, Acc P pre a → Settles d (Q (g a))) (lQ : ∀ x, Loc (Q x)) : Settles (c + d) (seqP P g Q) := by
  intro t hw hn
  rcases hp : P t with _ | ⟨a, t1⟩
  · obtain ⟨u, a, h1, h2, h3⟩ := hP t hw hp
    obtain ⟨v, b, k1, k2, k3⟩ := (hQ h3).start (lQ _)
    refine ⟨u ++ v, (a, b), Words_append.2 ⟨h1, k1⟩, by simp; omega, ?_⟩
    rw [← List.append_assoc]
    exact seqP_acc h3 k3
  · obtain ⟨p, rfl, ha⟩ := lP hp
    have hq : Q (g a) t1 = none := by
      unfold seqP at hn
      rw [hp] at hn
      simp only at hn
      rcases hq : Q (g a) t1 with _ | ⟨b, t2⟩
      · rfl
      · rw [hq] at hn; cases hn
    obtain ⟨v, b, k1, k2, k3⟩ := hQ ha t1 (Words_append.1 hw).2 hq
    refine ⟨v, (a, b), k1, by omega, ?_⟩
    rw [List.append_assoc]
    exact seqP_acc ha k3

theorem Settles.map {α β : Type} {P : Tape → Option (α × Tape)} {c : Nat} (hP : Settles c P) (f : α → β) :
    Settles c (fun t => (P t).map (fun p => (f p.1, p.2))) := by
  intro t hw hn
  obtain ⟨u, a, h1, h2, h3⟩ := hP t hw (by simpa using hn)
  refine ⟨u, f a, h1, h2, ?_⟩
  intro s
  simp only [h3 s, Option.map_some]

theorem Loc.map {α β : Type} {P : Tape → Option (α × Tape)} (hP : Loc P) (f : α → β) : Loc (fun t => (P t).map (fun p => (f p.1, p.2))) := by
  intro t t' b h
  simp only [Option.map_eq_some_iff, Prod.mk.injEq] at h
  obtain ⟨⟨a, t2⟩, h1, rfl, rfl⟩ := h
  obtain ⟨p, h3, h4⟩ := hP h1
  exact ⟨p, h3, fun s => by simp only [h4 s, Option.map_some]⟩

theorem Settles.retry {α : Type} {P : Tape → Option (α × Tape)} {R : α → α → Prop} {φ : α → α → Tape → Tape} (hF : Fair P R φ) {bad : α → Bool}
    (hne : ∀ {a}, ¬ Acc P [] a) {c d : Nat} (hP : Settles c P) {g : Tape} {a0 : α} (hg : Words g) (hd : g.length ≤ d) (ha0 : Acc P g a0)
    (hb0 : bad a0 = false) : Settles (c + d) (fun t => K431.retry P bad (t.length + 1) t) := by
  have main : ∀ n (t : Tape), t.length = n → Words t → K431.retry P bad (t.length + 1) t = none →
      ∃ u a, Words u ∧ u.length ≤ c + d ∧ RetryAcc P bad (t ++ u) a := by
    intro n
    induction n using Nat.strong_induction_on with
    | _ n ih =>
      intro t hn hw hr
      rcases hp : P t with _ | ⟨x, t1⟩
      · obtain ⟨u, x, h1, h2, h3⟩ := hP t hw hp
        by_cases hb : bad x = true
        · refine ⟨u ++ g, a0, Words_append.2 ⟨h1, hg⟩, by simp; omega, ?_⟩
          rw [← List.append_assoc]
          exact .again h3 hb (by intro e; rw [e] at h3; exact hne h3) (.stop ha0 hb0)
        · exact ⟨u, x, h1, by omega, .stop h3 (by simpa using hb)⟩
      · obtain ⟨p, rfl, hx⟩ := hF.loc hp
        have hpne : p ≠ [] := by rintro rfl; exact hne hx
        have hpos := List.length_pos_iff.2 hpne
        rw [List.length_append] at hn
        have hb : bad x = true := by
          simp only [K431.retry, hp] at hr
          by_contra hb
          rw [if_neg hb] at hr; cases hr
        have hr1 : K431.retry P bad (t1.length + 1) t1 = none := by
          rcases hr1 : K431.retry P bad (t1.length + 1) t1 with _ | ⟨y, t2⟩
          · rfl
          · obtain ⟨pre, rfl, hacc⟩ := retry_acc hF (fun {a} => hne) hr1
            have h5 := (RetryAcc.again hx hb hpne hacc).run ((p ++ (pre ++ t2)).length + 1) (by simp) t2
            rw [List.append_assoc, hr] at h5
            cases h5
        obtain ⟨u, a, h1, h2, h3⟩ := ih t1.length (by omega) t1 rfl (Words_append.1 hw).2 hr1
        refine ⟨u, a, h1, h2, ?_⟩
        rw [List.append_assoc]
        exact .again hx hb hpne h3
  intro t hw hr
  obtain ⟨u, a, h1, h2, h3⟩ := main _ t rfl hw hr
  exact ⟨u, a, h1, h2, fun s => h3.run _ (by simp) s⟩

/-- a word for which `Intn(n)` returns `x` at once -/
theorem intn_word {n : Nat} (hn : 0 < n) (hb : n ≤ 2 ^ 31 - 1) {x : Nat} (hx : x < n) : wordFor x < 2 ^ 64 ∧ Acc (intn n) [wordFor x] x := by
  have h63 : n ≤ 2 ^ 63 := by omega
  constructor
  · unfold wordFor; rw [Nat.shiftLeft_eq]; omega
  · intro s
    rw [List.singleton_append, intn_cons hn h63]
    have hv : intnVal n (wordFor x) = x := by
      unfold intnVal intnUnit wordFor
      rw [if_pos hb, Nat.shiftLeft_eq, Nat.mod_eq_of_lt (by omega)]
      exact Nat.mul_div_cancel _ (by decide)
    have ht : intnTakes n (wordFor x) := by
      unfold intnTakes
      rw [hv]
      unfold intnBound
      rw [if_pos hb]
      have := Nat.mod_lt (2 ^ 31) hn
      have h2 := Nat.div_add_mod (2 ^ 31) n
      have h3 : 1 ≤ 2 ^ 31 / n := Nat.div_pos (by omega) hn
      have h4 : n * 1 ≤ n * (2 ^ 31 / n) := Nat.mul_le_mul_left _ h3
      omega
    rw [if_pos ht, hv, Nat.mod_eq_of_lt hx]

theorem Settles.intn {n : Nat} (hn : 0 < n) (hb : n ≤ 2 ^ 31 - 1) : Settles 1 (intn n) := by
  intro t hw
  induction t with
  | nil =>
    intro _
    obtain ⟨h1, h2⟩ := intn_word hn hb hn
    refine ⟨[wordFor 0], 0, ?_, by simp, by simpa using h2⟩
    intro w hw; rw [List.mem_singleton] at hw; rw [hw]; exact h1
  | cons w t ih =>
    intro h
    rw [intn_cons hn (by omega)] at h
    split at h
    · cases h
    · rename_i ht
      obtain ⟨u, a, h1, h2, h3⟩ := ih (fun x hx => hw x (by simp [hx])) h
      refine ⟨u, a, h1, h2, ?_⟩
      intro s
      rw [List.cons_append, List.cons_append, intn_cons hn (by omega), if_neg ht]
      exact h3 s

theorem intns_word {n : Nat} (hn : 0 < n) (hb : n ≤ 2 ^ 31 - 1) : ∀ (xs : List Nat), (∀ x ∈ xs, x < n) →
    Words (xs.map wordFor) ∧ Acc (intns n xs.length) (xs.map wordFor) xs := by
  intro xs
  induction xs with
  | nil => intro _; exact ⟨(by intro w hw; cases hw), fun s => rfl⟩
  | cons x xs ih =>
    intro h
    obtain ⟨h1, h2⟩ := ih (fun y hy => h y (by simp [hy]))
    obtain ⟨h3, h4⟩ := intn_word hn hb (h x (by simp))
    constructor
    · intro w hw
      rw [List.map_cons, List.mem_cons] at hw
      rcases hw with hw | hw
      · rw [hw]; exact h3
      · exact h1 w hw
    · intro s
      have := h4 (xs.map wordFor ++ s)
      rw [List.singleton_append] at this
      simp only [List.map_cons, List.cons_append, List.length_cons, intns, this, h2 s]

theorem Settles.intns {n : Nat} (hn : 0 < n) (hb : n ≤ 2 ^ 31 - 1) : ∀ k, Settles k (intns n k) := by
  intro k
  induction k with
  | zero => intro t _ h; cases h
  | succ k ih =>
    intro t hw h
    simp only [K431.intns] at h
    rcases h1 : K431.intn n t with _ | ⟨x, t1⟩
    · obtain ⟨u, x, k1, k2, k3⟩ := Settles.intn hn hb t hw h1
      obtain ⟨w1, w2⟩ := intns_word hn hb (List.replicate k 0) (by intro y hy; rw [(List.mem_replicate.1 hy).2]; exact hn)
      refine ⟨u ++ (List.replicate k 0).map wordFor, x :: List.replicate k 0, Words_append.2 ⟨k1, w1⟩, by simp; omega, ?_⟩
      intro s
      rw [List.length_replicate] at w2
      simp only [K431.intns, List.append_assoc]
      have := k3 ((List.replicate k 0).map wordFor ++ s)
      rw [List.append_assoc] at this
      simp only [this, w2 s]
    · rw [h1] at h
      simp only at h
      obtain ⟨p, rfl, hx⟩ := (Fair.intn hn (by omega)).loc h1
      have h2 : K431.intns n k t1 = none := by
        rcases h2 : K431.intns n k t1 with _ | ⟨y, t2⟩
        · rfl
        · rw [h2] at h; cases h
      obtain ⟨u, xs, k1, k2, k3⟩ := ih t1 (Words_append.1 hw).2 h2
      refine ⟨u, x :: xs, k1, by omega, ?_⟩
      intro s
      have := hx (t1 ++ u ++ s)
      simp only [List.append_assoc] at this
      have h4 := k3 s
      rw [List.append_assoc] at h4
      simp only [K431.intns, List.append_assoc, this, h4]

/-! ## Key ids -/

theorem Settles.letters (k : Nat) : Settles k (lettersP k) := (Settles.intns (n := 26) (by decide) (by decide) k).map (fun xs => xs.map letterOf)

theorem lettersP_word {k : Nat} {s : Runes} (h : LetterString k s) : ∃ g : Tape, Words g ∧ g.length ≤ k ∧ Acc (lettersP k) g s := by
  obtain ⟨h1, h2, h3⟩ := h.inv
  obtain ⟨w1, w2⟩ := intns_word (n := 26) (by decide) (by decide) _ h3
  refine ⟨_, w1, by simp [h.1], ?_⟩
  intro t
  rw [h2] at w2
  simp only [lettersP, w2 t, Option.map_some, h1]

theorem lettersP_result {k : Nat} {t t' : Tape} {s : Runes} (h : lettersP k t = some (s, t')) : LetterString k s := by
  unfold lettersP at h
  simp only [Option.map_eq_some_iff, Prod.mk.injEq] at h
  obtain ⟨⟨xs, t2⟩, h1, rfl, rfl⟩ := h
  obtain ⟨b1, b2, -⟩ := intns_spec (by decide) h1
  refine ⟨by simpa using b1, ?_⟩
  intro c hc
  obtain ⟨x, hx, rfl⟩ := List.mem_map.1 hc
  exact letterOf_isLetter (b2 x hx)

theorem Fair.fresh (U : Unicode) {gs : Nat} (hg : gs ≠ 0) (used : List Runes) : ∃ R φ, Fair (freshP U used gs) R φ :=
  ⟨_, _, Fair.retry (Fair.letters gs) (takenB U used) (fun {a} => not_acc_nil (lettersP_nil hg))⟩

theorem Settles.fresh (U : Unicode) {gs : Nat} (hg : gs ≠ 0) {used : List Runes} (hne : (FreeIds U gs used).Nonempty) :
    Settles (gs + gs) (freshP U used gs) := by
  obtain ⟨id, h1, h2⟩ := hne
  obtain ⟨g, w1, w2, w3⟩ := lettersP_word h1
  exact Settles.retry (Fair.letters gs) (fun {a} => not_acc_nil (lettersP_nil hg)) (Settles.letters gs) w1 w2 w3 (by unfold takenB; simpa using h2)

theorem freshP_result {U : Unicode} {gs : Nat} {used : List Runes} {t t' : Tape} {id : Runes} (h : freshP U used gs t = some (id, t')) :
    id ∈ FreeIds U gs used := by
  have main : ∀ fuel (t : Tape), retry (lettersP gs) (takenB U used) fuel t = some (id, t') → id ∈ FreeIds U gs used := by
    intro fuel
    induction fuel with
    | zero => intro t h; cases h
    | succ fuel ih =>
      intro t h
      simp only [retry] at h
      rcases h1 : lettersP gs t with _ | ⟨x, t1⟩
      · rw [h1] at h; cases h
      · rw [h1] at h
        simp only at h
        by_cases hb : takenB U used x = true
        · rw [if_pos hb] at h; exact ih t1 h
        · rw [if_neg hb] at h
          cases h
          exact ⟨lettersP_result h1, by unfold takenB at hb; simpa using hb⟩
  exact main _ t h

theorem keyP_result {U : Unicode} {gs m : Nat} {used : List Runes} {t t' : Tape} {k : Runes × Runes} (h : keyP U gs m used t = some (k, t')) :
    k.1 ∈ FreeIds U gs used := by
  unfold keyP seqP at h
  rcases h1 : freshP U used gs t with _ | ⟨id, t1⟩
  · rw [h1] at h; cases h
  · rw [h1] at h
    simp only at h
    rcases h2 : lettersP m t1 with _ | ⟨rs, t2⟩
    · rw [h2] at h; cases h
    · rw [h2] at h
      cases h
      exact freshP_result h1

theorem Settles.key (U : Unicode) {gs : Nat} (hg : gs ≠ 0) (m : Nat) {used : List Runes} (hne : (FreeIds U gs used).Nonempty) :
    Settles (gs + gs + m) (keyP U gs m used) := by
  obtain ⟨R, φ, hF⟩ := Fair.fresh U hg used
  exact Settles.seq (Settles.fresh U hg hne) hF.loc (fun _ => Settles.letters m) (fun _ => (Fair.letters m).loc)

/-- Two ids of capital letters are alike only if they are equal. -/
theorem letterString_fold {U : Unicode} (hU : U.Lawful) {g : Nat} {a b : Runes} (ha : LetterString g a) (hb : LetterString g b)
    (h : SameFold U a b) : a = b := by
  have hid : ∀ {s : Runes}, LetterString g s → s.map U.toUpper = s := by
    intro s hs
    conv => rhs; rw [← List.map_id s]
    exact List.map_congr_left (fun c hc => toUpper_letter hU (hs.2 c hc))
  unfold SameFold at h
  rwa [hid ha, hid hb] at h

theorem freeIds_finite (U : Unicode) (g : Nat) (used : List Runes) : (FreeIds U g used).Finite := by
  have h : {w : Runes | LetterString g w}.Finite := by
    apply Set.finite_of_ncard_pos
    rw [letterStrings_card]; exact Nat.pow_pos (by decide)
  exact h.subset (fun w hw => hw.1)

theorem freeIds_append {U : Unicode} (hU : U.Lawful) {g : Nat} {used : List Runes} {id : Runes} (hid : id ∈ FreeIds U g used) :
    FreeIds U g (used ++ [id]) = FreeIds U g used \ {id} := by
  ext x
  constructor
  · rintro ⟨h1, h2⟩
    refine ⟨⟨h1, fun ⟨b, hb, hs⟩ => h2 ⟨b, by simp [hb], hs⟩⟩, ?_⟩
    rintro rfl
    exact h2 ⟨x, by simp, rfl⟩
  · rintro ⟨⟨h1, h2⟩, h3⟩
    refine ⟨h1, ?_⟩
    rintro ⟨b, hb, hs⟩
    rcases List.mem_append.1 hb with hb | hb
    · exact h2 ⟨b, hb, hs⟩
    · rw [List.mem_singleton] at hb
      subst hb
      exact h3 (letterString_fold hU h1 hid.1 hs)

theorem freeIds_append_card {U : Unicode} (hU : U.Lawful) {g : Nat} {used : List Runes} {id : Runes} (hid : id ∈ FreeIds U g used) :
    (FreeIds U g (used ++ [id])).ncard + 1 = (FreeIds U g used).ncard := by
  rw [freeIds_append hU hid]
  exact Set.ncard_sdiff_singleton_add_one hid (freeIds_finite U g used)

/-- each id in use takes away at most one id -/
theorem freeIds_card_ge {U : Unicode} (hU : U.Lawful) (g : Nat) (used : List Runes) : 26 ^ g ≤ (FreeIds U g used).ncard + used.length := by
  classical
  let f : Runes → Runes := fun b => if h : ∃ s, LetterString g s ∧ SameFold U s b then h.choose else []
  have hsub : {w : Runes | LetterString g w} ⊆ FreeIds U g used ∪ ((used.map f).toFinset : Set Runes) := by
    intro w hw
    by_cases h : InFold U w used
    · right
      obtain ⟨b, hb, hs⟩ := h
      have he : ∃ s, LetterString g s ∧ SameFold U s b := ⟨w, hw, hs⟩
      have : f b = w := by
        simp only [f, dif_pos he]
        exact letterString_fold hU he.choose_spec.1 hw (he.choose_spec.2.trans hs.symm)
      simp only [List.coe_toFinset, Set.mem_ofPred_eq, List.mem_map]
      exact ⟨b, hb, this⟩
    · left; exact ⟨hw, h⟩
  have h1 := Set.ncard_le_ncard hsub ((freeIds_finite U g used).union (Finset.finite_toSet _))
  rw [letterStrings_card] at h1
  have h2 := Set.ncard_union_le (FreeIds U g used) ((used.map f).toFinset : Set Runes)
  rw [Set.ncard_coe_finset] at h2
  have h3 := List.toFinset_card_le (used.map f)
  rw [List.length_map] at h3
  omega

theorem Settles.keys {U : Unicode} (hU : U.Lawful) {gs : Nat} (hg : gs ≠ 0) (m : Nat) : ∀ n used, n ≤ (FreeIds U gs used).ncard →
    Settles (n * (gs + gs + m)) (keysP U gs m n used) := by
  intro n
  induction n with
  | zero => intro used _ t _ h; cases h
  | succ n ih =>
    intro used hn
    have hne : (FreeIds U gs used).Nonempty := by
      rw [← Set.ncard_pos (freeIds_finite U gs used)]; omega
    have h := Settles.seq (g := fun k : Runes × Runes => used ++ [k.1]) (Q := fun used => keysP U gs m n used) (d := n * (gs + gs + m))
      (Settles.key U hg m hne) (Fair.key U hg m used).loc (by
        intro pre a ha
        refine ih _ ?_
        have := freeIds_append_card hU (keyP_result ha.self)
        omega) (fun used' => (Fair.keys U hg m n used').loc)
    have h2 := h.map (fun p => p.1 :: p.2)
    exact Settles.mono h2 (by rw [Nat.succ_mul]; omega)

theorem keysP_stuck {U : Unicode} (hU : U.Lawful) {gs : Nat} (m : Nat) : ∀ n used, (FreeIds U gs used).ncard < n →
    ∀ t, keysP U gs m n used t = none := by
  intro n
  induction n with
  | zero => intro used h; omega
  | succ n ih =>
    intro used hn t
    simp only [keysP, seqP]
    rcases h1 : keyP U gs m used t with _ | ⟨k, t1⟩
    · rfl
    · have := freeIds_append_card hU (keyP_result h1)
      simp only [ih (used ++ [k.1]) (by omega) t1, Option.map_none]

theorem generateLoop_none_iff (U : Unicode) (now : Nat → Int) (expire : Int) (keepers : List Runes) (n : Nat) (inst : Inst) (t : Tape) :
    generateLoop U now expire keepers n inst t = none ↔
    keysP U inst.groupSize (newKeyLength inst.keyLength inst.groupSize) n (inst.keys.map (fun k => k.id.val)) t = none := by
  rw [← (generateLoop_keysP U now expire keepers n inst t).1]
  simp

/-! ## Message ids -/

theorem alnum_word {k : Nat} {s : Runes} (h : AlnumString k s) : ∃ g : Tape, Words g ∧ g.length ≤ k ∧ Acc (randomAlnumRunes k) g s := by
  obtain ⟨h1, h2, h3⟩ := h.inv
  obtain ⟨w1, w2⟩ := intns_word (n := 62) (by decide) (by decide) _ h3
  refine ⟨_, w1, by simp [h.1], ?_⟩
  intro t
  rw [h2] at w2
  simp only [randomAlnumRunes, w2 t, Option.map_some, h1]

theorem Settles.messageId {msgs : List Msg} {id : Runes} (h : AlnumString 4 id) (hn : id ∉ msgs.map Msg.id) : Settles 8 (newUniqueMessageId msgs) := by
  obtain ⟨g, w1, w2, w3⟩ := alnum_word h
  have hs : Settles 4 (randomAlnumRunes 4) := (Settles.intns (n := 62) (by decide) (by decide) 4).map (fun xs => xs.map alnumOf)
  have h := Settles.retry (bad := fun id => containsMessageId msgs (some id)) (Fair.alnum 4) (fun {a} => not_acc_nil (by
    unfold randomAlnumRunes; rw [intns_nil (by decide)]; rfl)) hs w1 w2 w3 (by
      rw [Bool.eq_false_iff]; intro hc; exact hn ((containsMessageId_iff _ _).1 hc))
  have e : newUniqueMessageId msgs = fun t => K431.retry (randomAlnumRunes 4) (fun id => containsMessageId msgs (some id)) (t.length + 1) t :=
    funext (fun t => uniqueIdLoop_eq msgs _ t)
  rw [e]
  exact h

/-- If there are fewer strings than there are of `k` letters and digits, one of these is free. -/
theorem free_alnum (k : Nat) (l : List Runes) (h : l.length < 62 ^ k) : ∃ id, AlnumString k id ∧ id ∉ l := by
  by_contra hno
  push Not at hno
  have hidx : ∀ v : Fin k → Fin 62, ∃ i : Fin l.length, List.ofFn (fun i => alnumOf (v i).val) = l[i] := by
    intro v
    have hm := hno (List.ofFn (fun i => alnumOf (v i).val)) ⟨by simp, by
      intro c hc
      obtain ⟨i, rfl⟩ := (List.mem_ofFn' _ _).1 hc
      have := (v i).isLt
      unfold alnumOf IsAlnum
      dsimp only
      split <;> (try split) <;> omega⟩
    obtain ⟨i, hi, he⟩ := List.getElem_of_mem hm
    exact ⟨⟨i, hi⟩, he.symm⟩
  choose F hF using hidx
  have hinj : Function.Injective F := by
    intro v v' e
    have h1 := (hF v).trans (e ▸ (hF v').symm)
    have h2 := List.ofFn_injective h1
    funext i
    have h3 := congrArg unalnum (congrFun h2 i)
    rw [unalnum_alnumOf _ (v i).isLt, unalnum_alnumOf _ (v' i).isLt] at h3
    exact Fin.ext h3
  have := Fintype.card_le_of_injective F hinj
  simp at this
  omega

theorem messageId_stuck {msgs : List Msg} (h : ∀ id, AlnumString 4 id → id ∈ msgs.map Msg.id) (t : Tape) : newUniqueMessageId msgs t = none := by
  rcases h1 : newUniqueMessageId msgs t with _ | ⟨id, t'⟩
  · rfl
  · exfalso
    have main : ∀ fuel (t : Tape), uniqueIdLoop msgs fuel t ≠ some (id, t') := by
      intro fuel
      induction fuel with
      | zero => intro t h; cases h
      | succ fuel ih =>
        intro t h2
        simp only [uniqueIdLoop] at h2
        rcases h3 : randomAlnumRunes 4 t with _ | ⟨x, t1⟩
        · rw [h3] at h2; cases h2
        · rw [h3] at h2
          simp only at h2
          have hx : AlnumString 4 x := by
            unfold randomAlnumRunes at h3
            simp only [Option.map_eq_some_iff, Prod.mk.injEq] at h3
            obtain ⟨⟨xs, t2⟩, k1, rfl, rfl⟩ := h3
            obtain ⟨b1, b2, -⟩ := intns_spec (by decide) k1
            refine ⟨by simpa using b1, ?_⟩
            intro c hc
            obtain ⟨y, hy, rfl⟩ := List.mem_map.1 hc
            have := b2 y hy
            unfold alnumOf IsAlnum
            split <;> (try split) <;> omega
          rw [if_pos ((containsMessageId_iff _ _).2 (h x hx))] at h2
          exact ih t1 h2
    exact main _ t h1

end K431
