import Verif.FilterLemmas
import Verif.PropsCipher

/-!
# C52, C53: the filters of the command-line program; C59: validity periods
-/

namespace K431
open Spec

/-! ## C59 -/

/-- **C59.** A key valid for `d` at some time is not expired at any time up to `d` later, in particular not now if `d ≥ 0`;
validity for a longer period implies validity for a shorter one: a year implies a month, a month a day;
a key is expired or valid for zero, never both, and neither exactly at its expiry instant. -/
theorem C59_periods (now : Int) (k : Key) :
    (∀ d later, isValid now d k = true → later ≤ now + d → isExpired later k = false) ∧
    (∀ d, 0 ≤ d → isValid now d k = true → isExpired now k = false) ∧
    (∀ d d', d' ≤ d → isValid now d k = true → isValid now d' k = true) ∧
    (isValidOneYear now k = true → isValidOneMonth now k = true) ∧
    (isValidOneMonth now k = true → isValidOneDay now k = true) ∧
    (isValidOneDay now k = true ↔ now + 24 * 3600 * 1000000000 < k.expires) ∧
    (isValidOneMonth now k = true ↔ now + 30 * 24 * 3600 * 1000000000 < k.expires) ∧
    (isValidOneYear now k = true ↔ now + 365 * 24 * 3600 * 1000000000 < k.expires) ∧
    ¬ (isExpired now k = true ∧ isValid now 0 k = true) ∧
    (isExpired now k = false ∧ isValid now 0 k = false ↔ now = k.expires) := by
  simp only [isValidOneYear, isValidOneMonth, isValidOneDay, hour]
  simp only [isValid, isExpired, isValidOneYear, isValidOneMonth, isValidOneDay, hour, decide_eq_true_eq, decide_eq_false_iff_not]
  refine ⟨?_, ?_, ?_, ?_, ?_, ?_, ?_, ?_, ?_, ?_⟩
  · intro d later h1 h2; omega
  · intro d h1 h2; omega
  · intro d d' h1 h2; omega
  · intro h; omega
  · intro h; omega
  · constructor <;> intro h <;> omega
  · constructor <;> intro h <;> omega
  · constructor <;> intro h <;> omega
  · omega
  · constructor <;> intro h <;> omega

/-- non-vacuity: a key with 40 days left -/
example : let k : Key := ⟨⟨1, lit "A"⟩, [], [], 0, 40 * 24 * hour, false, false, []⟩
    isValidOneYear 0 k = false ∧ isValidOneMonth 0 k = true ∧ isValidOneDay 0 k = true ∧ isExpired 0 k = false ∧
    isExpired (41 * 24 * hour) k = true := by decide

/-! ## C52 -/

/-- **C52**, full statement: the filter selects exactly the keys the options ask for. -/
def C52_Statement : Prop :=
  ∀ (U : Unicode), U.Lawful → ∀ (now : Int) (o : KeyOpts) (k : Key), keyFilter U now o k = true ↔ o.Asks U now k

/-- a key that expires at time 100 -/
def exPlain : Key := ⟨⟨1, lit "A"⟩, lit "QWERT", [], 0, 100, false, false, []⟩

/-- The statement is false: `--invalid` keeps the valid keys and drops the expired and the compromised ones. -/
theorem C52_violated : ¬ C52_Statement := by
  intro h
  have := h unicode15 unicode15_lawful 0 { invalid := true } exPlain
  revert this
  decide +kernel

/-- It is also false because ids override all other criteria ... -/
theorem C52_violated_id : ¬ ∀ (U : Unicode), U.Lawful → ∀ (now : Int) (o : KeyOpts) (k : Key), o.invalid = false →
    (keyFilter U now o k = true ↔ o.Asks U now k) := by
  intro h
  have := h unicode15 unicode15_lawful 0 { ids := [lit "A"], used := true } exPlain rfl
  revert this
  decide +kernel

/-- ... and because the number of days is multiplied in 64 bits: a key that expires today is selected as valid for 200000 days. -/
theorem C52_violated_days : ¬ ∀ (U : Unicode), U.Lawful → ∀ (now : Int) (o : KeyOpts) (k : Key), o.invalid = false → o.ids = [] →
    (keyFilter U now o k = true ↔ o.Asks U now k) := by
  intro h
  have := h unicode15 unicode15_lawful 0 { valid := some 200000 } exPlain rfl rfl
  revert this
  decide +kernel

/-- **C52**, what holds: without `--invalid`, with ids given alone or not at all, and for up to 106751 days, the filter selects exactly
the keys the options ask for.  `--invalid`, if no ids are given, does the opposite of what it says and nothing else.  Missing: that. -/
theorem C52_partial (U : Unicode) (now : Int) (o : KeyOpts) (k : Key) (hd : o.daysFit) :
    (o.invalid = false → (vettedKeepers U o.ids = [] ∨ o.onlyIds) → (keyFilter U now o k = true ↔ o.Asks U now k)) ∧
    (o.invalid = true → o.all = false → vettedKeepers U o.ids = [] →
      (keyFilter U now o k = true ↔ ({ o with invalid := false }).Asks U now k ∧ ¬ (k.compromised = true ∨ k.expires < now))) := by
  rw [keyFilter_iff U now o k hd]
  unfold KeyOpts.Asks
  constructor
  · intro hi hids
    by_cases hv : vettedKeepers U o.ids = []
    · simp [hi, hv]
    · rcases hids with hids | ⟨h1, -, h3, h4, h5, h6, h7⟩
      · exact absurd hids hv
      · have hk : vettedKeepers U o.keepers = [] := by rw [h1]; rfl
        simp [hi, hv, hk, h3, h4, h5, h6, h7]
  · intro hi ha hids
    simp only [hi, ha, hids, Bool.false_eq_true, false_or, ne_eq, not_true_eq_false, false_and, true_and, false_imp_iff, true_imp_iff]
    constructor
    · rintro ⟨a, b, c⟩; exact ⟨⟨a, c⟩, b⟩
    · rintro ⟨⟨a, c⟩, b⟩; exact ⟨a, b, c⟩

/-- two keys: one valid, kept by AB, one used, compromised and expired -/
def exOld : Key := ⟨⟨2, lit "B"⟩, lit "QWERT", [⟨3, lit "AB"⟩, ⟨4, lit "CD"⟩], 0, -5, true, true, []⟩

/-- non-vacuity: each option selects something and leaves something out -/
example : let sel := fun o => [exPlain, exOld].map (keyFilter unicode15 0 o)
    sel { all := true } = [true, true] ∧ sel { ids := [lit "b,c"] } = [false, true] ∧
    sel { keepers := [lit "ab cd"] } = [false, true] ∧ sel { keepers := [lit "ab", lit "zz"] } = [false, false] ∧
    sel { keepers := [lit "ab", lit "zz"], or := true } = [false, true] ∧
    sel { expired := true } = [false, true] ∧ sel { compromised := true, used := true } = [false, true] ∧
    sel { unused := true } = [true, false] ∧ sel { valid := some 0 } = [true, false] ∧
    sel { invalid := true } = [true, false] := by decide +kernel

/-! ## C53 -/

/-- **C53.** The filter selects exactly the messages the options ask for. -/
theorem C53_filter (U : Unicode) (hU : U.Lawful) (o : MsgOpts) (m : Msg) : msgFilter U o m = true ↔ o.Asks U m := by
  obtain ⟨_, _, _, _, _, _, hall, _, hany, hof, _⟩ := C30_membership U
  unfold msgFilter MsgOpts.Asks
  simp only
  by_cases h1 : o.all = true
  · simp [h1]
  rw [if_neg h1]
  simp only [h1, false_or, Bool.false_eq_true]
  by_cases h2 : vettedMessageIds U o.ids = []
  · rw [if_neg (by simp [h2]), if_neg (not_not_intro h2)]
    have hk : ((decide ((vettedKeepers U o.to).length > 0) &&
        if o.or = true then !anyNeedleInHaystack U (some (vettedKeepers U o.to)) (some m.recipients)
        else !allNeedlesInHaystack U (some (vettedKeepers U o.to)) (some m.recipients) false) = true) ↔
        ¬ (vettedKeepers U o.to ≠ [] →
          if o.or then ∃ n ∈ vettedKeepers U o.to, n ∈ m.recipients else ∀ n ∈ vettedKeepers U o.to, n ∈ m.recipients) := by
      simp only [Bool.and_eq_true, decide_eq_true_eq, gt_iff_lt, List.length_pos_iff]
      by_cases ho : o.or = true
      · simp only [ho, if_true, Bool.not_eq_true', ← Bool.not_eq_true, hany, Classical.not_imp]
      · have ho' : o.or = false := by simpa using ho
        simp only [ho', Bool.false_eq_true, if_false, Bool.not_eq_true', ← Bool.not_eq_true, hall, Classical.not_imp]
        constructor
        · rintro ⟨a, b⟩; exact ⟨a, fun c => b ⟨a, c⟩⟩
        · rintro ⟨a, b⟩; exact ⟨a, fun c => b c.2⟩
    have hs : (decide ((vettedKeepers U o.from_).length > 0) && !anyOfThem U (some (vettedKeepers U o.from_)) (some m.from_)) = true ↔
        ¬ (vettedKeepers U o.from_ ≠ [] → m.from_ ∈ vettedKeepers U o.from_) := by
      simp only [Bool.and_eq_true, decide_eq_true_eq, gt_iff_lt, List.length_pos_iff, Bool.not_eq_true', ← Bool.not_eq_true, hof,
        Classical.not_imp]
      constructor
      · rintro ⟨a, b⟩; exact ⟨a, fun c => b ⟨(vetted_mem hU c).1, c⟩⟩
      · rintro ⟨a, b⟩; exact ⟨a, fun c => b c.2⟩
    by_cases c1 : (vettedKeepers U o.to ≠ [] →
          if o.or then ∃ n ∈ vettedKeepers U o.to, n ∈ m.recipients else ∀ n ∈ vettedKeepers U o.to, n ∈ m.recipients)
    · rw [if_neg (fun h => hk.1 h c1)]
      by_cases c2 : vettedKeepers U o.from_ ≠ [] → m.from_ ∈ vettedKeepers U o.from_
      · rw [if_neg (fun h => hs.1 h c2)]
        exact ⟨fun _ => ⟨c1, c2⟩, fun _ => rfl⟩
      · rw [if_pos (hs.2 c2)]
        exact ⟨fun h => by simp at h, fun h => absurd h.2 c2⟩
    · rw [if_pos (hk.2 c1)]
      exact ⟨fun h => by simp at h, fun h => absurd h.1 c1⟩
  · rw [if_pos (List.length_pos_iff.2 h2), if_pos h2, listed_iff]

/-- non-vacuity: each option selects something and leaves something out -/
example : let a : Msg := { exMsg "X" with id := lit "ab", recipients := [lit "AB", lit "CD"], from_ := lit "EF" }
    let b : Msg := { exMsg "X" with id := lit "AB", recipients := [lit "CD"], from_ := lit "GH" }
    let sel := fun o => [a, b].map (msgFilter unicode15 o)
    sel { all := true } = [true, true] ∧ sel { ids := [lit "ab"] } = [true, false] ∧
    sel { «to» := [lit "ab,cd"] } = [true, false] ∧ sel { «to» := [lit "ab", lit "cd"], or := true } = [true, true] ∧
    sel { from_ := [lit "gh", lit "zz"] } = [false, true] ∧ sel { «to» := [lit "cd"], from_ := [lit "zz"] } = [false, false] := by
  decide +kernel

end K431
