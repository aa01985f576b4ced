import Mathlib.Data.Set.Card
import Verif.SpecRandom
import Mathlib.Data.Set.Finite.List
import Mathlib.Data.Finset.Prod
import Verif.KeyLemmas
import Verif.MsgLemmas

/-! # Helper lemmas: uniformity of random draws

A process reading the tape is fair if for any two results there is a bijection between the stretches of tape leading to them.
-/

namespace K431
open Spec

theorem Words_append {a b : Tape} : Words (a ++ b) ↔ Words a ∧ Words b := by
  unfold Words; simp only [List.mem_append]
  exact ⟨fun h => ⟨fun w hw => h w (.inl hw), fun w hw => h w (.inr hw)⟩, fun h w hw => hw.elim (h.1 w) (h.2 w)⟩

/-- `P` returns `a` exactly when it has read `pre`. -/
def Acc {α : Type} (P : Tape → Option (α × Tape)) (pre : Tape) (a : α) : Prop := ∀ s, P (pre ++ s) = some (a, s)

/-- A process that reads a stretch of the tape, and maps between the stretches leading to different results. -/
structure Fair {α : Type} (P : Tape → Option (α × Tape)) (R : α → α → Prop) (φ : α → α → Tape → Tape) : Prop where
  loc : ∀ {t t' : Tape} {a : α}, P t = some (a, t') → ∃ pre, t = pre ++ t' ∧ Acc P pre a
  acc : ∀ {a b : α} {pre : Tape}, R a b → Words pre → Acc P pre a → Acc P (φ a b pre) b
  words : ∀ {a b : α} {pre : Tape}, R a b → Words pre → Acc P pre a → Words (φ a b pre)
  length : ∀ {a b : α} {pre : Tape}, R a b → Words pre → Acc P pre a → (φ a b pre).length = pre.length
  inv : ∀ {a b : α} {pre : Tape}, R a b → Words pre → Acc P pre a → φ b a (φ a b pre) = pre

theorem Acc.self {α : Type} {P : Tape → Option (α × Tape)} {pre : Tape} {a : α} (h : Acc P pre a) : P pre = some (a, []) := by
  have := h []; rwa [List.append_nil] at this

/-! ## Two processes one after the other -/

/-- first `P`, then `Q`, which depends on `g` of the result of `P` -/
def seqP {α β γ : Type} (P : Tape → Option (α × Tape)) (g : α → γ) (Q : γ → Tape → Option (β × Tape)) (t : Tape) :
    Option ((α × β) × Tape) :=
  match P t with
  | none => none
  | some (a, t) =>
    match Q (g a) t with
    | none => none
    | some (b, t) => some ((a, b), t)

/-- the map for `seqP` -/
def seqMap {α β γ : Type} (P : Tape → Option (α × Tape)) (g : α → γ) (φ : α → α → Tape → Tape) (χ : γ → β → β → Tape → Tape)
    (a b : α × β) (pre : Tape) : Tape :=
  match P pre with
  | none => pre
  | some (_, q) => φ a.1 b.1 (pre.take (pre.length - q.length)) ++ χ (g a.1) a.2 b.2 q

theorem seqP_acc {α β γ : Type} {P : Tape → Option (α × Tape)} {g : α → γ} {Q : γ → Tape → Option (β × Tape)} {p q : Tape} {a : α} {b : β}
    (h1 : Acc P p a) (h2 : Acc (Q (g a)) q b) : Acc (seqP P g Q) (p ++ q) (a, b) := by
  intro s
  unfold seqP
  rw [List.append_assoc, h1]
  simp only
  rw [h2]

theorem seqMap_eq {α β γ : Type} {P : Tape → Option (α × Tape)} {g : α → γ} {φ : α → α → Tape → Tape} {χ : γ → β → β → Tape → Tape}
    {p q : Tape} {x : α} {a b : α × β} (h1 : Acc P p x) : seqMap P g φ χ a b (p ++ q) = φ a.1 b.1 p ++ χ (g a.1) a.2 b.2 q := by
  unfold seqMap
  rw [h1]
  simp

theorem seqP_loc {α β γ : Type} {P : Tape → Option (α × Tape)} {g : α → γ} {Q : γ → Tape → Option (β × Tape)} {R : α → α → Prop}
    {T : γ → β → β → Prop} {φ : α → α → Tape → Tape} {χ : γ → β → β → Tape → Tape} (hP : Fair P R φ) (hQ : ∀ c, Fair (Q c) (T c) (χ c))
    {t t' : Tape} {x : α × β} (h : seqP P g Q t = some (x, t')) : ∃ p q, t = p ++ q ++ t' ∧ Acc P p x.1 ∧ Acc (Q (g x.1)) q x.2 := by
  unfold seqP at h
  rcases h1 : P t with _ | ⟨a, t1⟩
  · rw [h1] at h; cases h
  rw [h1] at h
  simp only at h
  rcases h2 : Q (g a) t1 with _ | ⟨b, t2⟩
  · rw [h2] at h; cases h
  rw [h2] at h
  simp only [Option.some.injEq, Prod.mk.injEq] at h
  obtain ⟨rfl, rfl⟩ := h
  obtain ⟨p, rfl, ha⟩ := hP.loc h1
  obtain ⟨q, rfl, hb⟩ := (hQ _).loc h2
  exact ⟨p, q, by rw [List.append_assoc], ha, hb⟩

theorem Fair.seq {α β γ : Type} {P : Tape → Option (α × Tape)} {g : α → γ} {Q : γ → Tape → Option (β × Tape)} {R : α → α → Prop}
    {T : γ → β → β → Prop} {φ : α → α → Tape → Tape} {χ : γ → β → β → Tape → Tape} (hP : Fair P R φ) (hQ : ∀ c, Fair (Q c) (T c) (χ c)) :
    Fair (seqP P g Q) (fun x y => R x.1 y.1 ∧ g x.1 = g y.1 ∧ T (g x.1) x.2 y.2) (seqMap P g φ χ) := by
  have split : ∀ {x : α × β} {pre : Tape}, Acc (seqP P g Q) pre x → ∃ p q, pre = p ++ q ∧ Acc P p x.1 ∧ Acc (Q (g x.1)) q x.2 := by
    intro x pre h
    obtain ⟨p, q, h1, h2, h3⟩ := seqP_loc hP hQ h.self
    exact ⟨p, q, by simpa using h1, h2, h3⟩
  refine ⟨?_, ?_, ?_, ?_, ?_⟩
  · intro t t' x h
    obtain ⟨p, q, h1, h2, h3⟩ := seqP_loc hP hQ h
    exact ⟨p ++ q, h1, seqP_acc h2 h3⟩
  all_goals
    intro a b pre hr hw h
    obtain ⟨p, q, rfl, h1, h2⟩ := split h
    obtain ⟨r1, r2, r3⟩ := hr
    rw [Words_append] at hw
    rw [seqMap_eq h1]
  · exact seqP_acc (hP.acc r1 hw.1 h1) (r2 ▸ (hQ _).acc r3 hw.2 h2)
  · exact Words_append.2 ⟨hP.words r1 hw.1 h1, (hQ _).words r3 hw.2 h2⟩
  · rw [List.length_append, List.length_append, hP.length r1 hw.1 h1, (hQ _).length r3 hw.2 h2]
  · rw [seqMap_eq (hP.acc r1 hw.1 h1), hP.inv r1 hw.1 h1, ← r2, (hQ _).inv r3 hw.2 h2]

/-! ## Renaming the results -/

theorem Fair.map {α β : Type} {P : Tape → Option (α × Tape)} {R : α → α → Prop} {φ : α → α → Tape → Tape} (hP : Fair P R φ)
    (f : α → β) (g : β → α) (hgf : ∀ {t t' a}, P t = some (a, t') → g (f a) = a) :
    Fair (fun t => (P t).map (fun p => (f p.1, p.2))) (fun x y => R (g x) (g y) ∧ f (g y) = y) (fun x y => φ (g x) (g y)) := by
  have conv : ∀ {pre : Tape} {x : β}, Acc (fun t => (P t).map (fun p => (f p.1, p.2))) pre x → Acc P pre (g x) := by
    intro pre x h
    have h0 := h.self
    simp only [Option.map_eq_some_iff, Prod.mk.injEq] at h0
    obtain ⟨⟨a, t'⟩, h1, h2, h3⟩ := h0
    simp only at h2 h3
    subst h2 h3
    obtain ⟨p, h4, h5⟩ := hP.loc h1
    rw [List.append_nil] at h4
    rw [hgf h1, h4]
    exact h5
  have back : ∀ {pre : Tape} {x : β}, f (g x) = x → Acc P pre (g x) → Acc (fun t => (P t).map (fun p => (f p.1, p.2))) pre x := by
    intro pre x hx h s
    simp only
    rw [h s]
    simp [hx]
  refine ⟨?_, ?_, ?_, ?_, ?_⟩
  · intro t t' x h
    simp only [Option.map_eq_some_iff, Prod.mk.injEq] at h
    obtain ⟨⟨a, t1⟩, h1, h2, h3⟩ := h
    simp only at h2 h3
    subst h2 h3
    obtain ⟨p, h4, h5⟩ := hP.loc h1
    refine ⟨p, h4, fun s => ?_⟩
    simp only
    rw [h5 s]
    rfl
  · intro x y pre hr hw h
    exact back hr.2 (hP.acc hr.1 hw (conv h))
  · intro x y pre hr hw h
    exact hP.words hr.1 hw (conv h)
  · intro x y pre hr hw h
    exact hP.length hr.1 hw (conv h)
  · intro x y pre hr hw h
    exact hP.inv hr.1 hw (conv h)

theorem Fair.mono {α : Type} {P : Tape → Option (α × Tape)} {R R' : α → α → Prop} {φ : α → α → Tape → Tape} (hP : Fair P R φ)
    (h : ∀ {a b}, R' a b → R a b) : Fair P R' φ :=
  ⟨hP.loc, fun hr => hP.acc (h hr), fun hr => hP.words (h hr), fun hr => hP.length (h hr), fun hr => hP.inv (h hr)⟩

/-! ## Drawing again while the result is bad -/

/-- draw until the result is not bad -/
def retry {α : Type} (P : Tape → Option (α × Tape)) (bad : α → Bool) : Nat → Tape → Option (α × Tape)
  | 0, _ => none
  | fuel + 1, t =>
    match P t with
    | none => none
    | some (a, t) => if bad a then retry P bad fuel t else some (a, t)

/-- the map for `retry` -/
def retryMap {α : Type} (P : Tape → Option (α × Tape)) (bad : α → Bool) (φ : α → α → Tape → Tape) (a b : α) : Nat → Tape → Tape
  | 0, t => t
  | fuel + 1, t =>
    match P t with
    | none => t
    | some (x, q) => if bad x then t.take (t.length - q.length) ++ retryMap P bad φ a b fuel q else φ a b t

/-- how a stretch of tape leads to a good result -/
inductive RetryAcc {α : Type} (P : Tape → Option (α × Tape)) (bad : α → Bool) : Tape → α → Prop
  | stop {pre : Tape} {a : α} : Acc P pre a → bad a = false → RetryAcc P bad pre a
  | again {p q : Tape} {x a : α} : Acc P p x → bad x = true → p ≠ [] → RetryAcc P bad q a → RetryAcc P bad (p ++ q) a

theorem RetryAcc.run {α : Type} {P : Tape → Option (α × Tape)} {bad : α → Bool} {pre : Tape} {a : α} (h : RetryAcc P bad pre a) :
    ∀ fuel, pre.length < fuel → ∀ s, retry P bad fuel (pre ++ s) = some (a, s) := by
  induction h with
  | stop h1 h2 =>
    intro fuel hf s
    cases fuel with
    | zero => omega
    | succ fuel => simp only [retry]; rw [h1]; simp [h2]
  | @again p q x a h1 h2 h3 _ ih =>
    intro fuel hf s
    cases fuel with
    | zero => omega
    | succ fuel =>
      simp only [retry]
      rw [List.append_assoc, h1]
      simp only [h2, if_true]
      have := List.length_pos_iff.2 h3
      rw [List.length_append] at hf
      exact ih fuel (by omega) s

theorem retry_acc {α : Type} {P : Tape → Option (α × Tape)} {R : α → α → Prop} {φ : α → α → Tape → Tape} (hP : Fair P R φ) {bad : α → Bool}
    (hne : ∀ {a}, ¬ Acc P [] a) : ∀ {fuel : Nat} {t t' : Tape} {a : α}, retry P bad fuel t = some (a, t') →
    ∃ pre, t = pre ++ t' ∧ RetryAcc P bad pre a := by
  intro fuel
  induction fuel with
  | zero => intro t t' a h; cases h
  | succ fuel ih =>
    intro t t' a h
    simp only [retry] at h
    rcases h1 : P t with _ | ⟨x, t1⟩
    · rw [h1] at h; cases h
    rw [h1] at h
    obtain ⟨p, rfl, hx⟩ := hP.loc h1
    simp only at h
    by_cases hb : bad x = true
    · rw [if_pos hb] at h
      obtain ⟨q, rfl, hq⟩ := ih h
      exact ⟨p ++ q, by rw [List.append_assoc], .again hx hb (by rintro rfl; exact hne hx) hq⟩
    · rw [if_neg hb] at h
      cases h
      exact ⟨p, rfl, .stop hx (by simpa using hb)⟩

theorem retryMap_stop {α : Type} {P : Tape → Option (α × Tape)} {bad : α → Bool} {φ : α → α → Tape → Tape} {a b x : α} {pre : Tape}
    (h : Acc P pre x) (hb : bad x = false) {fuel : Nat} (hf : 0 < fuel) : retryMap P bad φ a b fuel pre = φ a b pre := by
  cases fuel with
  | zero => omega
  | succ fuel => simp only [retryMap]; rw [h.self]; simp [hb]

theorem retryMap_again {α : Type} {P : Tape → Option (α × Tape)} {bad : α → Bool} {φ : α → α → Tape → Tape} {a b x : α} {p q : Tape}
    (h : Acc P p x) (hb : bad x = true) {fuel : Nat} :
    retryMap P bad φ a b (fuel + 1) (p ++ q) = p ++ retryMap P bad φ a b fuel q := by
  simp only [retryMap]; rw [h]; simp [hb]

theorem retryMap_spec {α : Type} {P : Tape → Option (α × Tape)} {R : α → α → Prop} {φ : α → α → Tape → Tape} (hP : Fair P R φ) {bad : α → Bool}
    {a b : α} (hr : R a b) (hbad : bad b = false) {pre : Tape} (h : RetryAcc P bad pre a) (hw : Words pre) :
    ∀ {fuel : Nat}, pre.length < fuel →
    RetryAcc P bad (retryMap P bad φ a b fuel pre) b ∧ Words (retryMap P bad φ a b fuel pre) ∧
    (retryMap P bad φ a b fuel pre).length = pre.length ∧
    retryMap P bad φ b a fuel (retryMap P bad φ a b fuel pre) = pre := by
  induction h with
  | stop h1 h2 =>
    intro fuel hf
    rw [retryMap_stop h1 h2 (by omega)]
    have hac := hP.acc hr hw h1
    refine ⟨.stop hac hbad, hP.words hr hw h1, hP.length hr hw h1, ?_⟩
    rw [retryMap_stop hac hbad (by omega)]
    exact hP.inv hr hw h1
  | @again p q x a h1 h2 h3 _ ih =>
    intro fuel hf
    cases fuel with
    | zero => omega
    | succ fuel =>
      rw [Words_append] at hw
      rw [List.length_append] at hf
      have := List.length_pos_iff.2 h3
      obtain ⟨i1, i2, i3, i4⟩ := ih hr hw.2 (fuel := fuel) (by omega)
      rw [retryMap_again h1 h2]
      refine ⟨.again h1 h2 h3 i1, Words_append.2 ⟨hw.1, i2⟩, by simp [i3], ?_⟩
      rw [retryMap_again h1 h2, i4]

theorem Fair.retry {α : Type} {P : Tape → Option (α × Tape)} {R : α → α → Prop} {φ : α → α → Tape → Tape} (hP : Fair P R φ) (bad : α → Bool)
    (hne : ∀ {a}, ¬ Acc P [] a) : Fair (fun t => retry P bad (t.length + 1) t) (fun a b => R a b ∧ bad b = false)
      (fun a b t => retryMap P bad φ a b (t.length + 1) t) := by
  have conv : ∀ {pre : Tape} {a : α}, Acc (fun t => K431.retry P bad (t.length + 1) t) pre a → RetryAcc P bad pre a := by
    intro pre a h
    obtain ⟨p, h1, h2⟩ := retry_acc hP hne h.self
    rw [List.append_nil] at h1
    exact h1 ▸ h2
  have back : ∀ {pre : Tape} {a : α}, RetryAcc P bad pre a → Acc (fun t => K431.retry P bad (t.length + 1) t) pre a := by
    intro pre a h s
    exact h.run _ (by simp) s
  refine ⟨?_, ?_, ?_, ?_, ?_⟩
  · intro t t' a h
    obtain ⟨p, h1, h2⟩ := retry_acc hP hne h
    exact ⟨p, h1, back h2⟩
  · intro a b pre hr hw h
    exact back (retryMap_spec hP hr.1 hr.2 (conv h) hw (Nat.lt_succ_self _)).1
  · intro a b pre hr hw h
    exact (retryMap_spec hP hr.1 hr.2 (conv h) hw (Nat.lt_succ_self _)).2.1
  · intro a b pre hr hw h
    exact (retryMap_spec hP hr.1 hr.2 (conv h) hw (Nat.lt_succ_self _)).2.2.1
  · intro a b pre hr hw h
    obtain ⟨_, _, h3, h4⟩ := retryMap_spec hP hr.1 hr.2 (conv h) hw (Nat.lt_succ_self _)
    rw [h3, h4]

/-! ## One call of Intn -/

/-- how many words differ only in bits `Intn(n)` does not look at (without the top bit) -/
def intnUnit (n : Nat) : Nat := if n ≤ 2 ^ 31 - 1 then 2 ^ 32 else 1
/-- what `Intn(n)` makes of a word before rejection -/
def intnVal (n w : Nat) : Nat := w % 2 ^ 63 / intnUnit n
/-- how many values `intnVal` has -/
def intnBound (n : Nat) : Nat := if n ≤ 2 ^ 31 - 1 then 2 ^ 31 else 2 ^ 63
/-- `Intn(n)` takes the word -/
def intnTakes (n w : Nat) : Prop := intnVal n w < intnBound n - intnBound n % n

instance (n w : Nat) : Decidable (intnTakes n w) := by unfold intnTakes; infer_instance

theorem int63_eq (v : Nat) : int63 v = v % 2 ^ 63 := by
  unfold int63
  rw [show (2 ^ 64 - 1 - 2 ^ 63 : Nat) = 2 ^ 63 - 1 by decide, Nat.and_two_pow_sub_one_eq_mod]

theorem int31_eq (v : Nat) : int31 v = v % 2 ^ 63 / 2 ^ 32 := by
  unfold int31
  rw [int63_eq, Nat.shiftRight_eq_div_pow]

theorem pow_mask {n B : Nat} (hn : 0 < n) (hp : n &&& (n - 1) = 0) (hB : n ≤ 2 ^ B) (v : Nat) :
    v &&& (n - 1) = v % n ∧ 2 ^ B % n = 0 := by
  obtain ⟨k, hk⟩ := (Nat.and_sub_one_eq_zero_iff_isPowerOfTwo (by omega)).1 hp
  subst hk
  refine ⟨Nat.and_two_pow_sub_one_eq_mod v k, ?_⟩
  have : k ≤ B := (Nat.pow_le_pow_iff_right (by omega)).1 hB
  exact Nat.mod_eq_zero_of_dvd (Nat.pow_dvd_pow 2 this)

theorem intn_nil (n : Nat) : intn n [] = none := by
  unfold intn int31n int63n
  by_cases h : n ≤ 2 ^ 31 - 1
  · rw [if_pos h]
    split <;> rfl
  · rw [if_neg h]
    split <;> rfl

theorem intn_cons {n : Nat} (hn : 0 < n) (hb : n ≤ 2 ^ 63) (w : Nat) (t : Tape) :
    intn n (w :: t) = if intnTakes n w then some (intnVal n w % n, t) else intn n t := by
  unfold intn intnTakes intnVal intnUnit intnBound
  by_cases h : n ≤ 2 ^ 31 - 1
  · simp only [if_pos h]
    have hlt : w % 2 ^ 63 / 2 ^ 32 < 2 ^ 31 := by omega
    unfold int31n
    by_cases hp : n &&& (n - 1) = 0
    · simp only [if_pos hp]
      obtain ⟨h1, h2⟩ := pow_mask hn hp (B := 31) (by omega) (int31 w)
      rw [h1, int31_eq, h2, if_pos (by omega)]
    · simp only [if_neg hp, int31nLoop, int31_eq]
      have hm := Nat.mod_lt (2 ^ 31) hn
      by_cases hc : w % 2 ^ 63 / 2 ^ 32 > 2 ^ 31 - 1 - 2 ^ 31 % n
      · rw [if_pos hc, if_neg (by omega)]
      · rw [if_neg hc, if_pos (by omega)]
  · simp only [if_neg h, Nat.div_one]
    have hlt : w % 2 ^ 63 < 2 ^ 63 := by omega
    unfold int63n
    by_cases hp : n &&& (n - 1) = 0
    · simp only [if_pos hp]
      obtain ⟨h1, h2⟩ := pow_mask hn hp (B := 63) hb (int63 w)
      rw [h1, int63_eq, h2, if_pos (by omega)]
    · simp only [if_neg hp, int63nLoop, int63_eq]
      have hm := Nat.mod_lt (2 ^ 63) hn
      by_cases hc : w % 2 ^ 63 > 2 ^ 63 - 1 - 2 ^ 63 % n
      · rw [if_pos hc, if_neg (by omega)]
      · rw [if_neg hc, if_pos (by omega)]

/-- change a word leading to `x` into one leading to `y` -/
def intnShift (n x y w : Nat) : Nat := w + y * intnUnit n - x * intnUnit n

theorem intnShift_spec {n : Nat} (hn : 0 < n) {x y w : Nat} (hy : y < n) (hw : w < 2 ^ 64) (ht : intnTakes n w)
    (hx : intnVal n w % n = x) :
    intnTakes n (intnShift n x y w) ∧ intnVal n (intnShift n x y w) % n = y ∧ intnShift n x y w < 2 ^ 64 ∧
    intnShift n y x (intnShift n x y w) = w := by
  have hdiv := Nat.div_add_mod (intnVal n w) n
  rw [hx] at hdiv
  have hB := Nat.div_add_mod (intnBound n) n
  have hxn : x < n := by rw [← hx]; exact Nat.mod_lt _ hn
  unfold intnTakes at ht ⊢
  have hq : intnVal n w / n < intnBound n / n := by
    rw [Nat.div_lt_iff_lt_mul hn, Nat.mul_comm]
    omega
  have hmul : n * (intnVal n w / n) + n ≤ n * (intnBound n / n) := by
    have := Nat.mul_le_mul_left n hq
    rw [Nat.succ_eq_add_one, Nat.mul_add, Nat.mul_one] at this
    exact this
  have hval : intnVal n (intnShift n x y w) = n * (intnVal n w / n) + y ∧ intnShift n x y w < 2 ^ 64 ∧
      intnShift n y x (intnShift n x y w) = w := by
    generalize intnVal n w / n = j at *
    generalize intnBound n / n = Bj at *
    unfold intnVal intnShift intnUnit intnBound at *
    by_cases h : n ≤ 2 ^ 31 - 1
    · simp only [if_pos h] at *
      generalize n * j = nj at *
      generalize n * Bj = nB at *
      omega
    · simp only [if_neg h, Nat.div_one, Nat.mul_one] at *
      generalize n * j = nj at *
      generalize n * Bj = nB at *
      omega
  refine ⟨?_, ?_, hval.2⟩
  · rw [hval.1]; omega
  · rw [hval.1, Nat.mul_add_mod, Nat.mod_eq_of_lt hy]

/-- the map for `Intn` -/
def intnMap (n : Nat) (x y : Nat) : Tape → Tape
  | [] => []
  | w :: t => if intnTakes n w then intnShift n x y w :: t else w :: intnMap n x y t

theorem intn_loc {n : Nat} (hn : 0 < n) (hb : n ≤ 2 ^ 63) : ∀ {t t' : Tape} {x : Nat}, intn n t = some (x, t') →
    ∃ pre, t = pre ++ t' ∧ Acc (intn n) pre x := by
  intro t
  induction t with
  | nil => intro t' x h; rw [intn_nil] at h; cases h
  | cons w t ih =>
    intro t' x h
    rw [intn_cons hn hb] at h
    by_cases hw : intnTakes n w
    · rw [if_pos hw] at h
      cases h
      exact ⟨[w], rfl, fun s => by rw [List.singleton_append, intn_cons hn hb, if_pos hw]⟩
    · rw [if_neg hw] at h
      obtain ⟨pre, rfl, hp⟩ := ih h
      exact ⟨w :: pre, rfl, fun s => by rw [List.cons_append, intn_cons hn hb, if_neg hw]; exact hp s⟩

theorem intn_acc {n : Nat} (hn : 0 < n) (hb : n ≤ 2 ^ 63) {w x : Nat} {pre : Tape} :
    Acc (intn n) (w :: pre) x ↔ if intnTakes n w then pre = [] ∧ intnVal n w % n = x else Acc (intn n) pre x := by
  unfold Acc
  simp only [List.cons_append, intn_cons hn hb]
  by_cases hw : intnTakes n w
  · simp only [if_pos hw, Option.some.injEq, Prod.mk.injEq]
    constructor
    · intro h
      have := h []
      exact ⟨by simpa using this.2, this.1⟩
    · rintro ⟨rfl, rfl⟩ s; exact ⟨rfl, rfl⟩
  · simp only [if_neg hw]

theorem not_acc_nil {α : Type} {P : Tape → Option (α × Tape)} (h : P [] = none) {a : α} : ¬ Acc P [] a := by
  intro ha
  have := ha.self
  rw [h] at this; cases this

theorem Fair.intn {n : Nat} (hn : 0 < n) (hb : n ≤ 2 ^ 63) : Fair (intn n) (fun x y => x < n ∧ y < n) (intnMap n) := by
  have main : ∀ {x y : Nat} {pre : Tape}, x < n → y < n → Words pre → Acc (K431.intn n) pre x →
      Acc (K431.intn n) (intnMap n x y pre) y ∧ Words (intnMap n x y pre) ∧ (intnMap n x y pre).length = pre.length ∧
      intnMap n y x (intnMap n x y pre) = pre := by
    intro x y pre hx hy
    induction pre with
    | nil => intro _ h; exact absurd h (not_acc_nil (intn_nil n))
    | cons w pre ih =>
      intro hw h
      rw [intn_acc hn hb] at h
      simp only [intnMap]
      by_cases ht : intnTakes n w
      · rw [if_pos ht] at h ⊢
        obtain ⟨rfl, hv⟩ := h
        obtain ⟨s1, s2, s3, s4⟩ := intnShift_spec hn hy (hw w (by simp)) ht hv
        refine ⟨?_, ?_, rfl, ?_⟩
        · rw [intn_acc hn hb, if_pos s1]; exact ⟨rfl, s2⟩
        · intro v hv; simp only [List.mem_singleton] at hv; rw [hv]; exact s3
        · simp only [intnMap, if_pos s1, s4]
      · rw [if_neg ht] at h ⊢
        obtain ⟨i1, i2, i3, i4⟩ := ih (fun v hv => hw v (by simp [hv])) h
        refine ⟨?_, ?_, by simp [i3], ?_⟩
        · rw [intn_acc hn hb, if_neg ht]; exact i1
        · intro v hv
          rcases List.mem_cons.1 hv with rfl | hv
          · exact hw v (by simp)
          · exact i2 v hv
        · simp only [intnMap, if_neg ht, i4]
  exact ⟨intn_loc hn hb, fun hr hw h => (main hr.1 hr.2 hw h).1, fun hr hw h => (main hr.1 hr.2 hw h).2.1,
    fun hr hw h => (main hr.1 hr.2 hw h).2.2.1, fun hr hw h => (main hr.1 hr.2 hw h).2.2.2⟩

/-! ## Several calls -/

/-- the map for `intns` -/
def intnsMap (n : Nat) : Nat → List Nat → List Nat → Tape → Tape
  | 0, _, _, t => t
  | k + 1, xs, ys, t => seqMap (intn n) (fun _ => ()) (intnMap n) (fun _ => intnsMap n k) (xs.headD 0, xs.tail) (ys.headD 0, ys.tail) t

/-- `xs` are `k` numbers below `n` -/
def InRange (n k : Nat) (xs : List Nat) : Prop := xs.length = k ∧ ∀ x ∈ xs, x < n

theorem intns_succ (n k : Nat) (t : Tape) :
    intns n (k + 1) t = (seqP (intn n) (fun _ => ()) (fun _ => intns n k) t).map (fun p => (p.1.1 :: p.1.2, p.2)) := by
  rw [intns]; unfold seqP
  rcases intn n t with _ | ⟨x, t1⟩
  · rfl
  · simp only
    rcases intns n k t1 with _ | ⟨xs, t2⟩ <;> rfl

theorem Fair.intns {n : Nat} (hn : 0 < n) (hb : n ≤ 2 ^ 63) : ∀ k, Fair (intns n k) (fun x y => InRange n k x ∧ InRange n k y) (intnsMap n k) := by
  intro k
  induction k with
  | zero =>
    refine ⟨?_, ?_, ?_, ?_, ?_⟩
    · intro t t' a h
      cases h
      exact ⟨[], rfl, fun s => rfl⟩
    · intro a b pre hr _ h s
      have := h s
      simp only [K431.intns, intnsMap, Option.some.injEq, Prod.mk.injEq] at this ⊢
      exact ⟨(List.length_eq_zero_iff.1 hr.2.1).symm, this.2⟩
    · intro a b pre _ hw _; exact hw
    · intros; rfl
    · intros; rfl
  | succ k ih =>
    have h1 := Fair.seq (g := fun _ => ()) (Fair.intn hn hb) (fun _ => ih)
    have h2 := h1.map (fun p => p.1 :: p.2) (fun l => (l.headD 0, l.tail)) (by intro t t' a _; rfl)
    have e : K431.intns n (k + 1) = fun t => (seqP (K431.intn n) (fun _ => ()) (fun _ => K431.intns n k) t).map (fun p => (p.1.1 :: p.1.2, p.2)) :=
      funext (intns_succ n k)
    rw [e]
    refine Fair.mono h2 ?_
    rintro (_ | ⟨x, xs⟩) (_ | ⟨y, ys⟩) ⟨⟨l1, r1⟩, ⟨l2, r2⟩⟩
    · simp at l1
    · simp at l1
    · simp at l2
    · simp only [List.length_cons, Nat.add_right_cancel_iff] at l1 l2
      simp only [List.mem_cons, forall_eq_or_imp] at r1 r2
      exact ⟨⟨⟨r1.1, r2.1⟩, rfl, ⟨l1, r1.2⟩, l2, r2.2⟩, rfl⟩

/-! ## Counting tapes -/

theorem tapes_finite (L : Nat) (C : Tape → Prop) : (Tapes L C).Finite := by
  have h : {l : List (Fin (2 ^ 64)) | l.length = L}.Finite := List.finite_length_eq _ L
  refine (h.image (fun l => l.map Fin.val)).subset ?_
  rintro t ⟨hw, hl, -⟩
  refine ⟨t.attach.map (fun w => ⟨w.1, hw w.1 w.2⟩), by simpa using hl, ?_⟩
  simp [List.map_map, Function.comp_def]

/-- the map on whole tapes -/
def tapeMap {α : Type} (P : Tape → Option (α × Tape)) (φ : α → α → Tape → Tape) (a b : α) (t : Tape) : Tape :=
  match P t with
  | none => t
  | some (_, t') => φ a b (t.take (t.length - t'.length)) ++ t'

theorem tapeMap_eq {α : Type} {P : Tape → Option (α × Tape)} {φ : α → α → Tape → Tape} {a b x : α} {pre s : Tape} (h : Acc P pre x) :
    tapeMap P φ a b (pre ++ s) = φ a b pre ++ s := by
  unfold tapeMap; rw [h s]; simp

theorem Fair.count {α : Type} {P : Tape → Option (α × Tape)} {R : α → α → Prop} {φ : α → α → Tape → Tape} (hP : Fair P R φ) {a b : α}
    (hab : R a b) (hba : R b a) (L : Nat) :
    (Tapes L (fun t => ∃ t', P t = some (a, t'))).ncard = (Tapes L (fun t => ∃ t', P t = some (b, t'))).ncard := by
  have main : ∀ {a b : α}, R a b → ∀ {t}, t ∈ Tapes L (fun t => ∃ t', P t = some (a, t')) →
      tapeMap P φ a b t ∈ Tapes L (fun t => ∃ t', P t = some (b, t')) ∧ tapeMap P φ b a (tapeMap P φ a b t) = t := by
    rintro a b hr t ⟨hw, hl, t', ht⟩
    obtain ⟨pre, rfl, hp⟩ := hP.loc ht
    rw [Words_append] at hw
    rw [tapeMap_eq hp]
    have hac := hP.acc hr hw.1 hp
    refine ⟨⟨Words_append.2 ⟨hP.words hr hw.1 hp, hw.2⟩, ?_, t', hac t'⟩, ?_⟩
    · rw [List.length_append, hP.length hr hw.1 hp, ← List.length_append, hl]
    · rw [tapeMap_eq hac, hP.inv hr hw.1 hp]
  refine Set.ncard_congr (fun t _ => tapeMap P φ a b t) ?_ ?_ ?_
  · intro t ht; exact (main hab ht).1
  · intro t u ht hu e
    rw [← (main hab ht).2, ← (main hab hu).2, e]
  · intro t ht
    exact ⟨_, (main hba ht).1, (main hba ht).2⟩

/-! ## Ids and keys -/

/-- `k` random letters -/
def lettersP (k : Nat) (t : Tape) : Option (Runes × Tape) := (intns 26 k t).map (fun p => (p.1.map letterOf, p.2))

/-- the number behind a letter -/
def unletter (c : Rune) : Nat := (c - 65).toNat

theorem unletter_letterOf (x : Nat) : unletter (letterOf x) = x := by unfold unletter letterOf; omega

theorem letterOf_unletter {c : Rune} (h : IsLetter c) : letterOf (unletter c) = c ∧ unletter c < 26 := by
  unfold IsLetter at h; unfold unletter letterOf; omega

theorem Spec.LetterString.inv {k : Nat} {s : Runes} (h : LetterString k s) :
    (s.map unletter).map letterOf = s ∧ InRange 26 k (s.map unletter) := by
  refine ⟨?_, by simpa using h.1, ?_⟩
  · rw [List.map_map]
    conv => rhs; rw [← List.map_id s]
    exact List.map_congr_left (fun c hc => (letterOf_unletter (h.2 c hc)).1)
  · intro x hx
    obtain ⟨c, hc, rfl⟩ := List.mem_map.1 hx
    exact (letterOf_unletter (h.2 c hc)).2

/-- the map for `lettersP` -/
def lettersMap (k : Nat) (s u : Runes) : Tape → Tape := intnsMap 26 k (s.map unletter) (u.map unletter)

theorem Fair.letters (k : Nat) : Fair (lettersP k) (fun s u => LetterString k s ∧ LetterString k u) (lettersMap k) := by
  have h := (Fair.intns (n := 26) (by decide) (by decide) k).map (fun xs => xs.map letterOf) (fun s => s.map unletter)
    (by intro t t' xs _; simp [List.map_map, Function.comp_def, unletter_letterOf])
  refine Fair.mono h ?_
  intro a b ⟨ha, hb⟩
  exact ⟨⟨ha.inv.2, hb.inv.2⟩, hb.inv.1⟩

theorem intns_nil {n k : Nat} (hk : k ≠ 0) : intns n k [] = none := by
  cases k with
  | zero => exact absurd rfl hk
  | succ k => rw [intns, intn_nil]

theorem lettersP_nil {k : Nat} (hk : k ≠ 0) : lettersP k [] = none := by
  unfold lettersP; rw [intns_nil hk]; rfl

open Classical in
/-- the id is taken -/
noncomputable def takenB (U : Unicode) (used : List Runes) (id : Runes) : Bool := decide (InFold U id used)

theorem takenB_eq (U : Unicode) (keys : List Key) (id : Runes) :
    containsKeyId U keys (some id) = takenB U (keys.map (fun k => k.id.val)) id := by
  rw [Bool.eq_iff_iff, containsKeyId_iff]
  unfold takenB
  simp

/-- a fresh key id -/
noncomputable def freshP (U : Unicode) (used : List Runes) (gs : Nat) (t : Tape) : Option (Runes × Tape) :=
  retry (lettersP gs) (takenB U used) (t.length + 1) t

theorem newIdLoop_eq (U : Unicode) (keys : List Key) (gs : Nat) : ∀ fuel t, newIdLoop U keys gs fuel t =
    retry (lettersP gs) (takenB U (keys.map (fun k => k.id.val))) fuel t := by
  intro fuel
  induction fuel with
  | zero => intro t; rfl
  | succ fuel ih =>
    intro t
    simp only [newIdLoop, retry, lettersP]
    rcases intns 26 gs t with _ | ⟨xs, t1⟩
    · rfl
    · simp only [Option.map_some, ← takenB_eq, ih]

/-- id and letters of a new key -/
noncomputable def keyP (U : Unicode) (gs m : Nat) (used : List Runes) : Tape → Option ((Runes × Runes) × Tape) :=
  seqP (freshP U used gs) (fun _ => ()) (fun _ => lettersP m)

/-- the map for `keyP` -/
noncomputable def keyMap (U : Unicode) (gs m : Nat) (used : List Runes) : Runes × Runes → Runes × Runes → Tape → Tape :=
  seqMap (freshP U used gs) (fun _ => ()) (fun a b t => retryMap (lettersP gs) (takenB U used) (lettersMap gs) a b (t.length + 1) t)
    (fun _ => lettersMap m)

/-- a possible new key: its id is free -/
def FreshKey (U : Unicode) (gs m : Nat) (used : List Runes) (k : Runes × Runes) : Prop :=
  LetterString gs k.1 ∧ ¬ InFold U k.1 used ∧ LetterString m k.2

theorem Fair.key (U : Unicode) {gs : Nat} (hg : gs ≠ 0) (m : Nat) (used : List Runes) :
    Fair (keyP U gs m used) (fun a b => FreshKey U gs m used a ∧ FreshKey U gs m used b) (keyMap U gs m used) := by
  have h1 := Fair.retry (Fair.letters gs) (takenB U used) (fun {a} => not_acc_nil (lettersP_nil hg))
  have h2 := Fair.seq (g := fun _ => ()) h1 (fun _ => Fair.letters m)
  refine Fair.mono h2 ?_
  intro a b ⟨ha, hb⟩
  refine ⟨⟨⟨ha.1, hb.1⟩, ?_⟩, rfl, ha.2.2, hb.2.2⟩
  unfold takenB
  simpa using hb.2.1

/-- ids and letters of `n` new keys -/
noncomputable def keysP (U : Unicode) (gs m : Nat) : Nat → List Runes → Tape → Option (List (Runes × Runes) × Tape)
  | 0, _, t => some ([], t)
  | n + 1, used, t => (seqP (keyP U gs m used) (fun k => used ++ [k.1]) (fun used => keysP U gs m n used) t).map (fun p => (p.1.1 :: p.1.2, p.2))

/-- the map for `keysP` -/
noncomputable def keysMap (U : Unicode) (gs m : Nat) : Nat → List Runes → List (Runes × Runes) → List (Runes × Runes) → Tape → Tape
  | 0, _, _, _, t => t
  | n + 1, used, ks, ls, t => seqMap (keyP U gs m used) (fun k => used ++ [k.1]) (keyMap U gs m used) (fun used => keysMap U gs m n used)
      (ks.headD ([], []), ks.tail) (ls.headD ([], []), ls.tail) t

/-- a possible list of new keys -/
def FreshKeys (U : Unicode) (gs m : Nat) : List Runes → List (Runes × Runes) → Prop
  | _, [] => True
  | used, k :: ks => FreshKey U gs m used k ∧ FreshKeys U gs m (used ++ [k.1]) ks

theorem Fair.keys (U : Unicode) {gs : Nat} (hg : gs ≠ 0) (m : Nat) : ∀ n used, Fair (keysP U gs m n used)
    (fun a b => a.length = n ∧ a.map Prod.fst = b.map Prod.fst ∧ FreshKeys U gs m used a ∧ FreshKeys U gs m used b) (keysMap U gs m n used) := by
  intro n
  induction n with
  | zero =>
    intro used
    refine ⟨?_, ?_, ?_, ?_, ?_⟩
    · intro t t' a h
      cases h
      exact ⟨[], rfl, fun s => rfl⟩
    · intro a b pre hr _ h s
      have := h s
      simp only [keysP, keysMap, Option.some.injEq, Prod.mk.injEq] at this ⊢
      refine ⟨?_, this.2⟩
      have h2 := hr.2.1
      rw [← this.1] at h2
      simpa using h2
    · intro a b pre _ hw _; exact hw
    · intros; rfl
    · intros; rfl
  | succ n ih =>
    intro used
    have h1 := Fair.seq (g := fun k : Runes × Runes => used ++ [k.1]) (Fair.key U hg m used) (fun used' => ih used')
    have h2 := h1.map (fun p => p.1 :: p.2) (fun l => (l.headD ([], []), l.tail)) (by intro t t' a _; rfl)
    refine Fair.mono (P := keysP U gs m (n + 1) used) h2 ?_
    rintro (_ | ⟨x, xs⟩) (_ | ⟨y, ys⟩) ⟨l1, l2, f1, f2⟩
    · simp at l1
    · simp at l1
    · simp at l2
    · simp only [List.length_cons, Nat.add_right_cancel_iff] at l1
      simp only [List.map_cons, List.cons.injEq] at l2
      simp only [FreshKeys] at f1 f2
      refine ⟨⟨⟨f1.1, f2.1⟩, ?_, l1, l2.2, f1.2, ?_⟩, rfl⟩
      · simp [l2.1]
      · simp only [List.headD_cons, List.tail_cons, l2.1]; exact f2.2

theorem newKey_keyP (U : Unicode) (now expire : Int) (keepers : List Runes) (inst : Inst) (t : Tape) :
    (newKey U now expire keepers inst t).map (fun p => ((p.1.id.val, p.1.runes), p.2.2)) =
    keyP U inst.groupSize (newKeyLength inst.keyLength inst.groupSize) (inst.keys.map (fun k => k.id.val)) t := by
  unfold newKey keyP seqP freshP
  simp only [newIdLoop_eq]
  rcases retry (lettersP inst.groupSize) (takenB U (inst.keys.map (fun k => k.id.val))) (t.length + 1) t with _ | ⟨id, t1⟩
  · rfl
  · simp only [lettersP]
    rcases intns 26 (newKeyLength inst.keyLength inst.groupSize) t1 with _ | ⟨xs, t2⟩ <;> rfl

theorem newKey_inst {U : Unicode} {now expire : Int} {keepers : List Runes} {inst inst' : Inst} {t t' : Tape} {k : Key}
    (h : newKey U now expire keepers inst t = some (k, inst', t')) :
    inst'.keys = inst.keys ++ [k] ∧ inst'.groupSize = inst.groupSize ∧ inst'.keyLength = inst.keyLength := by
  obtain ⟨rfl, -⟩ := newKey_spec h
  exact ⟨rfl, rfl, rfl⟩

theorem generateLoop_keysP (U : Unicode) (now : Nat → Int) (expire : Int) (keepers : List Runes) : ∀ (n : Nat) (inst : Inst) (t : Tape),
    (generateLoop U now expire keepers n inst t).map (fun p => ((p.1.keys.drop inst.keys.length).map (fun k => (k.id.val, k.runes)), p.2)) =
    keysP U inst.groupSize (newKeyLength inst.keyLength inst.groupSize) n (inst.keys.map (fun k => k.id.val)) t ∧
    ∀ p, generateLoop U now expire keepers n inst t = some p → inst.keys <+: p.1.keys := by
  intro n
  induction n with
  | zero => intro inst t; simp [generateLoop, keysP]
  | succ n ih =>
    intro inst t
    simp only [generateLoop, keysP, seqP]
    rw [← newKey_keyP U (now n) expire keepers]
    rcases hk : newKey U (now n) expire keepers inst t with _ | ⟨k, inst1, t1⟩
    · simp
    · obtain ⟨e1, e2, e3⟩ := newKey_inst hk
      obtain ⟨i1, i2⟩ := ih inst1 t1
      simp only [Option.map_some]
      rw [e1, e2, e3, List.map_append, List.map_singleton] at i1
      rw [← i1]
      rcases hg : generateLoop U now expire keepers n inst1 t1 with _ | ⟨inst2, t2⟩
      · simp
      · have hp := i2 _ hg
        obtain ⟨r, hr⟩ := hp
        simp only at hr
        rw [e1] at hr
        simp only [Option.map_some, Option.some.injEq, Prod.mk.injEq, and_true, forall_eq']
        refine ⟨?_, ⟨k :: r, by rw [← hr]; simp⟩⟩
        rw [← hr]
        simp [List.drop_append]

/-! ## Message ids -/

/-- the number behind a character of a message id -/
def unalnum (c : Rune) : Nat := if 65 ≤ c ∧ c ≤ 90 then (c - 65).toNat else if 97 ≤ c ∧ c ≤ 122 then (c - 97).toNat + 26 else (c - 48).toNat + 52

theorem unalnum_alnumOf (x : Nat) (h : x < 62) : unalnum (alnumOf x) = x := by
  unfold unalnum alnumOf; split <;> (try split) <;> (repeat' split) <;> omega

theorem alnumOf_unalnum {c : Rune} (h : IsAlnum c) : alnumOf (unalnum c) = c ∧ unalnum c < 62 := by
  unfold IsAlnum at h; unfold unalnum alnumOf
  constructor
  · repeat' split
    all_goals omega
  · repeat' split
    all_goals omega

theorem Spec.AlnumString.inv {k : Nat} {s : Runes} (h : AlnumString k s) :
    (s.map unalnum).map alnumOf = s ∧ InRange 62 k (s.map unalnum) := by
  refine ⟨?_, by simpa using h.1, ?_⟩
  · rw [List.map_map]
    conv => rhs; rw [← List.map_id s]
    exact List.map_congr_left (fun c hc => (alnumOf_unalnum (h.2 c hc)).1)
  · intro x hx
    obtain ⟨c, hc, rfl⟩ := List.mem_map.1 hx
    exact (alnumOf_unalnum (h.2 c hc)).2

theorem Fair.alnum (k : Nat) : Fair (randomAlnumRunes k) (fun s u => AlnumString k s ∧ AlnumString k u)
    (fun s u => intnsMap 62 k (s.map unalnum) (u.map unalnum)) := by
  have h := (Fair.intns (n := 62) (by decide) (by decide) k).map (fun xs => xs.map alnumOf) (fun s => s.map unalnum) (by
    intro t t' xs hx
    obtain ⟨-, b2, -⟩ := intns_spec (by decide) hx
    rw [List.map_map]
    conv => rhs; rw [← List.map_id xs]
    exact List.map_congr_left (fun x hx => unalnum_alnumOf x (b2 x hx)))
  refine Fair.mono h ?_
  intro a b ⟨ha, hb⟩
  exact ⟨⟨ha.inv.2, hb.inv.2⟩, hb.inv.1⟩

theorem uniqueIdLoop_eq (msgs : List Msg) : ∀ fuel t, uniqueIdLoop msgs fuel t =
    retry (randomAlnumRunes 4) (fun id => containsMessageId msgs (some id)) fuel t := by
  intro fuel
  induction fuel with
  | zero => intro t; rfl
  | succ fuel ih =>
    intro t
    simp only [uniqueIdLoop, retry]
    rcases randomAlnumRunes 4 t with _ | ⟨id, t1⟩
    · rfl
    · simp only [ih]

theorem Fair.messageId (msgs : List Msg) : Fair (newUniqueMessageId msgs)
    (fun a b => (AlnumString 4 a ∧ AlnumString 4 b) ∧ containsMessageId msgs (some b) = false)
    (fun a b t => retryMap (randomAlnumRunes 4) (fun id => containsMessageId msgs (some id))
      (fun s u => intnsMap 62 4 (s.map unalnum) (u.map unalnum)) a b (t.length + 1) t) := by
  have h := Fair.retry (Fair.alnum 4) (fun id => containsMessageId msgs (some id)) (fun {a} => not_acc_nil (by
    unfold randomAlnumRunes; rw [intns_nil (by decide)]; rfl))
  have e : newUniqueMessageId msgs = fun t => K431.retry (randomAlnumRunes 4) (fun id => containsMessageId msgs (some id)) (t.length + 1) t :=
    funext (fun t => uniqueIdLoop_eq msgs _ t)
  rw [e]
  exact h

/-! ## One word -/

/-- the words for which `Intn(n)` returns `x` at once -/
def wordAt (n x : Nat) (p : Nat × Nat × Nat) : Nat := p.1 * 2 ^ 63 + (n * p.2.1 + x) * intnUnit n + p.2.2

theorem intn_words {n x : Nat} (hn : 0 < n) (hb : n ≤ 2 ^ 63) (hx : x < n) :
    {w | w < 2 ^ 64 ∧ intn n [w] = some (x, [])} =
      wordAt n x '' ↑((Finset.range 2) ×ˢ ((Finset.range (intnBound n / n)) ×ˢ (Finset.range (intnUnit n)))) := by
  ext w
  simp only [Set.mem_ofPred_eq, Set.mem_image, Finset.coe_product, Set.mem_prod, Finset.coe_range, Set.mem_Iio, Prod.exists]
  rw [intn_cons hn hb, intn_nil]
  have hB := Nat.div_add_mod (intnBound n) n
  constructor
  · rintro ⟨hw, h⟩
    by_cases ht : intnTakes n w
    · rw [if_pos ht] at h
      simp only [Option.some.injEq, Prod.mk.injEq, and_true] at h
      have hdiv := Nat.div_add_mod (intnVal n w) n
      rw [h] at hdiv
      unfold intnTakes at ht
      refine ⟨w / 2 ^ 63, intnVal n w / n, w % 2 ^ 63 % intnUnit n, ⟨by omega, ?_, ?_⟩, ?_⟩
      · rw [Nat.div_lt_iff_lt_mul hn, Nat.mul_comm]; omega
      · apply Nat.mod_lt; unfold intnUnit; split <;> omega
      · unfold wordAt
        simp only
        rw [hdiv]
        unfold intnVal intnUnit
        split <;> omega
    · rw [if_neg ht] at h; cases h
  · rintro ⟨h, j, r, ⟨hh, hj, hr⟩, rfl⟩
    have hmul : n * j + n ≤ n * (intnBound n / n) := by
      have := Nat.mul_le_mul_left n hj
      rw [Nat.succ_eq_add_one, Nat.mul_add, Nat.mul_one] at this
      exact this
    have hval : intnVal n (wordAt n x (h, j, r)) = n * j + x ∧ wordAt n x (h, j, r) < 2 ^ 64 := by
      generalize intnBound n / n = Bj at *
      unfold intnVal wordAt intnBound at *
      simp only at *
      unfold intnUnit at *
      by_cases hc : n ≤ 2 ^ 31 - 1
      · simp only [if_pos hc] at *
        generalize n * j = nj at *
        generalize n * Bj = nB at *
        omega
      · simp only [if_neg hc] at *
        generalize n * j = nj at *
        generalize n * Bj = nB at *
        omega
    refine ⟨hval.2, ?_⟩
    rw [if_pos, hval.1, Nat.mul_add_mod, Nat.mod_eq_of_lt hx]
    unfold intnTakes
    rw [hval.1]; omega

theorem intn_words_card {n x : Nat} (hn : 0 < n) (hb : n ≤ 2 ^ 63) (hx : x < n) :
    {w | w < 2 ^ 64 ∧ intn n [w] = some (x, [])}.ncard = 2 * (intnBound n / n * intnUnit n) := by
  rw [intn_words hn hb hx, Set.InjOn.ncard_image, Set.ncard_coe_finset]
  · simp only [Finset.card_product, Finset.card_range]
  · rintro ⟨h1, j1, r1⟩ m1 ⟨h2, j2, r2⟩ m2 e
    simp only [Finset.coe_product, Set.mem_prod, Finset.coe_range, Set.mem_Iio] at m1 m2
    have bnd : ∀ j, j < intnBound n / n → n * j + x < intnBound n := by
      intro j hj
      have := Nat.mul_le_mul_left n hj
      rw [Nat.succ_eq_add_one, Nat.mul_add, Nat.mul_one] at this
      have hB := Nat.div_add_mod (intnBound n) n
      omega
    have b1 := bnd j1 m1.2.1
    have b2 := bnd j2 m2.2.1
    have hj : h1 = h2 ∧ n * j1 = n * j2 ∧ r1 = r2 := by
      unfold wordAt intnUnit at *
      unfold intnBound at b1 b2
      simp only at *
      by_cases hc : n ≤ 2 ^ 31 - 1
      · simp only [if_pos hc] at *
        generalize n * j1 = x1 at *
        generalize n * j2 = x2 at *
        omega
      · simp only [if_neg hc] at *
        generalize n * j1 = x1 at *
        generalize n * j2 = x2 at *
        omega
    obtain ⟨rfl, h2', rfl⟩ := hj
    rw [Nat.eq_of_mul_eq_mul_left hn h2']

end K431
