import Verif.PfkLemmas

/-!
# C42: setting the key and the salt of the persistence file; C43: confirmed passwords; C44: deriving the key from a password
-/

namespace K431
open Spec

/-! ## C42 -/

/-- **C42**, key.  `SetPFKFromString` succeeds exactly on hex strings of 32 bytes; then the key is 32 bytes, the getter returns the string in
lower case and nothing else has changed.  Otherwise it returns an error and changes nothing. -/
theorem C42_pfk (s : List Nat) (k : Krypto) :
    ((setPFKFromString s k).1 = .ok () ↔ HexString 32 s) ∧
    ((setPFKFromString s k).1 = .ok () → getPFKString (setPFKFromString s k).2 = lower s ∧
      ∃ b, Bytes 32 b ∧ (setPFKFromString s k).2 = { k with pfk := some b }) ∧
    ((setPFKFromString s k).1 ≠ .ok () → (∃ e, (setPFKFromString s k).1 = .err e) ∧ (setPFKFromString s k).2 = k) := by
  rw [hexString_iff]
  unfold setPFKFromString
  cases hd : hexDecode s with
  | none => simp
  | some b =>
    obtain ⟨h1, h2, h3⟩ := hexDecode_some hd
    dsimp only
    by_cases hb : b.length = 32
    · rw [if_neg (by simp [hb])]
      refine ⟨by simp [hb], fun _ => ⟨h3, b, ⟨hb, h2⟩, rfl⟩, by simp⟩
    · rw [if_pos hb]
      simp [hb]

/-- **C42**, salt.  The same for `SetSaltFromString` and hex strings of at least 32 bytes. -/
theorem C42_salt (s : List Nat) (k : Krypto) :
    ((setSaltFromString s k).1 = .ok () ↔ ∃ n, 32 ≤ n ∧ HexString n s) ∧
    ((setSaltFromString s k).1 = .ok () → getSaltString (setSaltFromString s k).2 = lower s ∧
      ∃ b n, 32 ≤ n ∧ Bytes n b ∧ (setSaltFromString s k).2 = { k with salt := some b }) ∧
    ((setSaltFromString s k).1 ≠ .ok () → (∃ e, (setSaltFromString s k).1 = .err e) ∧ (setSaltFromString s k).2 = k) := by
  simp only [hexString_iff]
  unfold setSaltFromString
  cases hd : hexDecode s with
  | none => simp
  | some b =>
    obtain ⟨h1, h2, h3⟩ := hexDecode_some hd
    dsimp only
    by_cases hb : b.length < 32
    · rw [if_pos hb]
      refine ⟨?_, by simp, fun _ => ⟨⟨_, rfl⟩, rfl⟩⟩
      simp only [reduceCtorEq, Option.some.injEq, exists_eq_left', false_iff, not_exists, not_and]
      intro n h e; omega
    · rw [if_neg hb]
      refine ⟨?_, fun _ => ⟨h3, b, b.length, by omega, ⟨rfl, h2⟩, rfl⟩, by simp⟩
      simp only [true_iff]
      exact ⟨b.length, by omega, b, rfl, rfl⟩

/-- **C42**, generated keys and salts.  Whatever 32 bytes the random source delivers, `GeneratePFK` and `GenerateSalt` return a string that the
setters accept, and the setters restore exactly these bytes: different draws give different keys. -/
theorem C42_generate (draw : List Nat) (h : Bytes 32 draw) (k : Krypto) :
    ∃ s, generateHex32 (some draw) = .ok s ∧ HexString 32 s ∧
      setPFKFromString s k = (.ok (), { k with pfk := some draw }) ∧
      setSaltFromString s k = (.ok (), { k with salt := some draw }) := by
  have hd := hexDecode_encode draw h.2
  refine ⟨hexEncode draw, rfl, (hexString_iff _ _).2 ⟨draw, hd, h.1⟩, ?_, ?_⟩
  · unfold setPFKFromString; rw [hd]; simp [h.1]
  · unfold setSaltFromString; rw [hd]; simp [h.1]

/-- **C42**, options.  `WithPFKString` and `WithSaltString` set the same value as the setters where these succeed, and remove the key or the salt
otherwise; `WithPFK` and `WithSalt` accept the same byte strings.  Never is a key of another length than 32 set. -/
theorem C42_options (s : List Nat) (b : Option (List Nat)) (k : Krypto) :
    withPFKString s k = (if (setPFKFromString s k).1 = .ok () then (setPFKFromString s k).2 else { k with pfk := none }) ∧
    withSaltString s k = (if (setSaltFromString s k).1 = .ok () then (setSaltFromString s k).2 else { k with salt := none }) ∧
    withPFK b k = { k with pfk := b.filter (fun b => b.length = 32) } ∧
    withSalt b k = { k with salt := b.filter (fun b => 32 ≤ b.length) } := by
  refine ⟨?_, ?_, ?_, ?_⟩
  · unfold withPFKString setPFKFromString
    cases hd : hexDecode s with
    | none => simp
    | some b =>
      have h1 := (hexDecode_some hd).1
      dsimp only
      by_cases hb : b.length = 32
      · rw [if_neg (show ¬ s.length ≠ 32 * 2 by omega)]; simp [hb]
      · rw [if_pos (show s.length ≠ 32 * 2 by omega)]; simp [hb]
  · unfold withSaltString setSaltFromString
    cases hd : hexDecode s with
    | none => simp
    | some b =>
      by_cases hb : b.length < 32
      · simp [hb]
      · simp [hb]
  · unfold withPFK
    cases b with
    | none => simp
    | some b => by_cases hb : b.length = 32 <;> simp [hb, Option.filter]
  · unfold withSalt
    cases b with
    | none => simp
    | some b =>
      by_cases hb : b.length < 32
      · simp [hb, Option.filter]
      · simp [hb, Option.filter]

/-- non-vacuity: the default salt is accepted, in capitals too; a string with another character and one of 31 bytes are not -/
example : HexString 32 defaultSalt ∧ HexString 32 (ascii "D14461856F830FC5A1F9BA1B845FAE5F61C54767DED39CF943174E6869B44476") ∧
    ¬ HexString 32 (ascii "g14461856f830fc5a1f9ba1b845fae5f61c54767ded39cf943174e6869b44476") ∧
    ¬ HexString 32 (ascii "d14461856f830fc5a1f9ba1b845fae5f61c54767ded39cf943174e6869b444") := by decide
example : hexDecode (ascii "00fFa1") = some [0, 255, 161] ∧ hexDecode (ascii "00f") = none ∧ hexDecode (ascii "0x") = none := by decide
example : Bytes 32 (List.replicate 32 255) := by decide

/-! ## C43 -/

/-- C43, what holds: a returned password is strong enough and was entered twice in a row, as the last two inputs; all inputs but the one whose
buffer is returned have been wiped.  If an error is returned, reading the last input failed, and all earlier inputs have been wiped but possibly the one before: a first
entry that was strong enough.  (Full statement: all of them; see `C43_violated`.) -/
theorem C43_partial (strong : List Nat → Bool) (inputs : List (Option (List Nat))) (a : Asked)
    (h : askAndConfirm strong inputs = some a) :
    a.read ≤ inputs.length ∧
    (∀ pw, a.result = .ok pw → strong pw = true ∧ 2 ≤ a.read ∧ inputs[a.read - 2]? = some (some pw) ∧
      inputs[a.read - 1]? = some (some pw) ∧ ∀ j, j ∈ a.wiped ↔ j < a.read ∧ j ≠ a.read - 2) ∧
    (∀ e, a.result = .err e → inputs[a.read - 1]? = some none ∧
      ∀ j < a.read - 1, j ∈ a.wiped ∨ j = a.read - 2 ∧ ∃ pw, inputs[j]? = some (some pw) ∧ strong pw = true) ∧
    a.result ≠ .panic := by
  obtain ⟨done, h1, h2, h3, h4⟩ := askConfirmLoop_spec strong inputs 0 [] a h
  have h1 : a.read = done := by omega
  subst h1
  rcases h4 with ⟨pw, e1, e2, e3, e4, e5, v, e6, e7⟩ | ⟨e, e1, e2, v, e3, e4⟩
  · refine ⟨h2, ?_, ?_, by rw [e1]; simp⟩
    · intro q hq
      rw [e1] at hq; cases hq
      refine ⟨e2, e3, e4, e5, ?_⟩
      intro j
      rw [e6, List.nil_append, e7]
      omega
    · intro e he; rw [e1] at he; cases he
  · refine ⟨h2, ?_, ?_, by rw [e1]; simp⟩
    · intro pw hq; rw [e1] at hq; cases hq
    · intro e' he
      refine ⟨e2, ?_⟩
      intro j hj
      rw [e3, List.nil_append]
      rcases e4 with e4 | ⟨f1, ⟨pw, f2, f3⟩, f4⟩
      · left; rw [e4]; omega
      · by_cases hj' : j = a.read - 2
        · right; exact ⟨hj', pw, by rw [hj']; exact f2, f3⟩
        · left; rw [f4]; omega

/-- C43, acceptance: after any number of weak or unequal entries, a strong password entered twice is returned. -/
theorem C43_accepts (strong : List Nat → Bool) (weak : List (List Nat)) (hw : ∀ p ∈ weak, strong p = false)
    (pairs : List (List Nat × List Nat)) (hp : ∀ p ∈ pairs, strong p.1 = true ∧ p.1 ≠ p.2)
    (pw : List Nat) (hs : strong pw = true) (later : List (Option (List Nat))) :
    ∃ a, askAndConfirm strong (weak.map some ++ pairs.flatMap (fun p => [some p.1, some p.2]) ++ [some pw, some pw] ++ later) = some a ∧
      a.result = .ok pw ∧ a.read = weak.length + 2 * pairs.length + 2 := by
  unfold askAndConfirm
  have main : ∀ (i : Nat) (w : List Nat), ∃ a, askConfirmLoop strong i
      (weak.map some ++ pairs.flatMap (fun p => [some p.1, some p.2]) ++ [some pw, some pw] ++ later) w = some a ∧
      a.result = .ok pw ∧ a.read = i + weak.length + 2 * pairs.length + 2 := by
    induction weak with
    | nil =>
      clear hw
      induction pairs with
      | nil =>
        intro i w
        refine ⟨⟨.ok pw, w ++ [i + 1], i + 2⟩, ?_, rfl, by simp⟩
        simp [askConfirmLoop, hs]
      | cons p ps ih =>
        intro i w
        have hp1 := hp p (by simp)
        obtain ⟨a, h1, h2, h3⟩ := ih (fun q hq => hp q (by simp [hq])) (i + 2) (w ++ [i, i + 1])
        refine ⟨a, ?_, h2, by simp at h3 ⊢; omega⟩
        simp only [List.map_nil, List.nil_append, List.flatMap_cons, List.cons_append] at h1 ⊢
        rw [askConfirmLoop]
        simp only [hp1.1, Bool.not_true, Bool.false_eq_true, if_false]
        rw [if_neg hp1.2]; exact h1
    | cons p ps ih =>
      intro i w
      have hp1 := hw p (by simp)
      obtain ⟨a, h1, h2, h3⟩ := ih (fun q hq => hw q (by simp [hq])) (i + 1) (w ++ [i])
      refine ⟨a, ?_, h2, by simp at h3 ⊢; omega⟩
      generalize hl : List.map some ps ++ pairs.flatMap (fun p => [some p.1, some p.2]) ++ [some pw, some pw] ++ later = l at h1
      have : List.map some (p :: ps) ++ pairs.flatMap (fun p => [some p.1, some p.2]) ++ [some pw, some pw] ++ later = some p :: l := by
        simp [← hl]
      rw [this]
      cases l with
      | nil => simp [askConfirmLoop] at h1
      | cons x r => unfold askConfirmLoop; rw [hp1]; exact h1
  simpa using main 0 []

/-- C43 fails: if reading the repetition fails, the first entry stays in memory. -/
theorem C43_violated : ∃ (strong : List Nat → Bool) (inputs : List (Option (List Nat))) (a : Asked),
    askAndConfirm strong inputs = some a ∧ a.result = .err .other ∧ a.read = 2 ∧ inputs[0]? = some (some (ascii "correct horse")) ∧ 0 ∉ a.wiped :=
  ⟨fun _ => true, [some (ascii "correct horse"), none], ⟨.err .other, [], 2⟩, by decide⟩

/-- non-vacuity: a weak entry, a mismatch, then success; three wipes -/
example : askAndConfirm (fun p => 3 ≤ p.length) [some [1], some [1, 2, 3], some [1, 2, 4], some [7, 8, 9], some [7, 8, 9], none] =
    some ⟨.ok [7, 8, 9], [0, 1, 2, 4], 5⟩ := by decide

/-! ## C44 -/

/-- C44, what holds while the random source works (it delivers `f`).  On every return path the password is overwritten with what the random
source delivers and its slice is set to nil.  Without a salt, or with one shorter than 32 bytes, an error is returned and nothing changes.  With a salt the key becomes the one derived from password and
salt, and nothing else changes; the validating variant does so exactly if the password is strong enough, and else returns an error and changes nothing. -/
theorem C44_partial (E : PwEnv) (validate : Bool) (f : Nat → Nat) (pw : List Nat) (k : Krypto) :
    (derivePFK E validate (some f) (some ⟨pw, false⟩) k).2.2 = some ⟨(List.range pw.length).map f, true⟩ ∧
    ((∀ salt, k.salt = some salt → salt.length < 32) →
      (∃ e, (derivePFK E validate (some f) (some ⟨pw, false⟩) k).1 = .err e) ∧
      (derivePFK E validate (some f) (some ⟨pw, false⟩) k).2.1 = k) ∧
    (∀ salt, k.salt = some salt → 32 ≤ salt.length → (validate = false ∨ E.strong pw = true) →
      (derivePFK E validate (some f) (some ⟨pw, false⟩) k).1 = .ok () ∧
      (derivePFK E validate (some f) (some ⟨pw, false⟩) k).2.1 = { k with pfk := some (E.kdf pw salt) }) ∧
    (validate = true → E.strong pw = false →
      (∃ e, (derivePFK E validate (some f) (some ⟨pw, false⟩) k).1 = .err e) ∧
      (derivePFK E validate (some f) (some ⟨pw, false⟩) k).2.1 = k) ∧
    (∃ e, (derivePFK E validate (some f) none k).1 = .err e) ∧ (derivePFK E validate (some f) none k).2.1 = k := by
  unfold derivePFK
  cases hsalt : k.salt with
  | none => simp [wipeBytes]
  | some salt =>
    by_cases hl : salt.length < 32
    · simp only [hl, if_true]
      refine ⟨by simp [wipeBytes], fun _ => ⟨⟨_, rfl⟩, trivial⟩, ?_, fun _ _ => ⟨⟨_, rfl⟩, trivial⟩, ⟨_, rfl⟩, trivial⟩
      intro s hs h32; cases hs; omega
    · simp only [hl, if_false]
      by_cases hv : (validate && !E.strong (Buf.val ⟨pw, false⟩)) = true
      · simp only [hv, if_true]
        simp only [Buf.val, Bool.false_eq_true, if_false, Bool.and_eq_true, Bool.not_eq_true'] at hv
        refine ⟨by simp [wipeBytes], fun _ => ⟨⟨_, rfl⟩, trivial⟩, ?_, fun _ _ => ⟨⟨_, rfl⟩, trivial⟩, ⟨_, rfl⟩, trivial⟩
        intro s _ _ h; rcases h with h | h
        · rw [hv.1] at h; cases h
        · rw [hv.2] at h; cases h
      · simp only [hv]
        refine ⟨by simp [wipeBytes], ?_, ?_, ?_, ⟨_, rfl⟩, trivial⟩
        · intro h; exact absurd (h salt rfl) hl
        · intro s hs _ _; cases hs; exact ⟨rfl, rfl⟩
        · intro h1 h2
          simp [Buf.val, h1, h2] at hv

/-- C44: the key derived depends only on password and salt, not on the rest of the instance, the random source or the variant; it is 32 bytes long if PBKDF2 delivers
the 32 bytes it is asked for. -/
theorem C44_function (E : PwEnv) (v v' : Bool) (n n' : Option (Nat → Nat)) (pw : List Nat) (k k' : Krypto) (hs : k.salt = k'.salt)
    (h : (derivePFK E v n (some ⟨pw, false⟩) k).1 = .ok ()) (h' : (derivePFK E v' n' (some ⟨pw, false⟩) k').1 = .ok ()) :
    (derivePFK E v n (some ⟨pw, false⟩) k).2.1.pfk = (derivePFK E v' n' (some ⟨pw, false⟩) k').2.1.pfk ∧
    ((∀ p s, (E.kdf p s).length = 32) → ∃ b, (derivePFK E v n (some ⟨pw, false⟩) k).2.1.pfk = some b ∧ b.length = 32) ∧
    (derivePFK E v n (some ⟨pw, false⟩) k).2.1.salt = k.salt := by
  unfold derivePFK at *
  rw [← hs] at h' ⊢
  cases hsalt : k.salt with
  | none => rw [hsalt] at h; simp at h
  | some salt =>
    rw [hsalt] at h h'
    by_cases hl : salt.length < 32
    · simp [hl] at h
    · simp only [hl, if_false] at h h' ⊢
      by_cases hv : (v && !E.strong (Buf.val ⟨pw, false⟩)) = true
      · simp [hv] at h
      · by_cases hv' : (v' && !E.strong (Buf.val ⟨pw, false⟩)) = true
        · simp [hv'] at h'
        · simp only [hv, hv']
          refine ⟨rfl, fun hk => ⟨_, rfl, hk _ _⟩, ?_⟩
          simp

/-- C44 fails if the random source does: the deferred `WipeBytes` returns its error to nobody and the password stays in memory. -/
theorem C44_violated : ∃ (E : PwEnv) (pw : List Nat) (k : Krypto),
    (derivePFK E false none (some ⟨pw, false⟩) k).1 = .ok () ∧
    (derivePFK E false none (some ⟨pw, false⟩) k).2.2 = some ⟨ascii "correct horse", false⟩ :=
  ⟨⟨fun _ _ => [], fun _ => true⟩, ascii "correct horse", { newBase with spareKeys := [], spareMsgs := [] }, by decide⟩

/-- non-vacuity: the instance made by `New` has a salt of 32 bytes -/
example : ∃ salt, newBase.salt = some salt ∧ 32 ≤ salt.length ∧ newBase.pfk = none := by
  refine ⟨[209, 68, 97, 133, 111, 131, 15, 197, 161, 249, 186, 27, 132, 95, 174, 95, 97, 197, 71, 103, 222, 211, 156, 249, 67, 23, 78, 104, 105, 180, 68, 118], ?_, by decide, rfl⟩
  show hexDecode defaultSalt = _
  decide

end K431
