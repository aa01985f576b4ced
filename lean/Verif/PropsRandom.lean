import Verif.UniformLemmas
import Verif.LiveLemmas
import Verif.PropsMessages

/-! # C45: random letters are uniform

The tape is the stream of 64-bit words of the operating system.  If it is uniform, two results are equally likely if equally
many tapes of every length lead to them; all sets of tapes counted here are finite.
-/

namespace K431
open Spec

/-- C45, `Int63`: exactly two words lead to each number below 2^63, and no other number results. -/
theorem C45_int63 (v : Nat) (hv : v < 2 ^ 63) :
    (∀ w, w < 2 ^ 64 → (int63 w = v ↔ w = v ∨ w = v + 2 ^ 63)) ∧ ∀ w, int63 w < 2 ^ 63 := by
  simp only [int63_eq]
  constructor
  · intro w hw; omega
  · intro w; omega

example : int63 (5 + 2 ^ 63) = 5 := by decide +kernel

/-- C45, `Intn`: whatever the source delivers, the result is in range. -/
theorem C45_range (n : Nat) (hn : 0 < n) (t t' : Tape) (x : Nat) (h : intn n t = some (x, t')) : x < n := (intn_lt hn h).1

/-- C45, `Intn(n)`: the number of words which lead to the result `x` at once is the same for all `x` below `n`: `2^33 ⌊2^31/n⌋` if
`n < 2^31`, otherwise `2 ⌊2^63/n⌋`.  All other words make it read another word. -/
theorem C45_intn (n x : Nat) (hn : 0 < n) (hb : n ≤ 2 ^ 63) (hx : x < n) :
    {w | w < 2 ^ 64 ∧ intn n [w] = some (x, [])}.ncard = if n < 2 ^ 31 then 2 ^ 33 * (2 ^ 31 / n) else 2 * (2 ^ 63 / n) := by
  rw [intn_words_card hn hb hx]
  unfold intnBound intnUnit
  by_cases h : n < 2 ^ 31
  · rw [if_pos h, if_pos (by omega), if_pos (by omega), Nat.mul_comm (2 ^ 31 / n), ← Nat.mul_assoc]; rfl
  · rw [if_neg h, if_neg (by omega), if_neg (by omega), Nat.mul_one]

/-- C45: a word not taken is skipped, and nothing else happens. -/
theorem C45_skip (n : Nat) (hn : 0 < n) (hb : n ≤ 2 ^ 63) (w : Nat) (t : Tape) (h : ∀ x, intn n [w] ≠ some (x, [])) :
    intn n (w :: t) = intn n t := by
  rw [intn_cons hn hb, if_neg]
  intro hc
  apply h
  rw [intn_cons hn hb, if_pos hc]

/-- non-vacuity: a word `Intn(26)` does not take, and the letters -/
example : intn 26 [2 ^ 63 - 1] = none ∧ intn 26 [2 ^ 63 - 1, 3 <<< 32] = some (3, []) := by
  decide +kernel

/-- C45, sequences: of the tapes of length `L`, equally many lead to each sequence of `k` results of `Intn(n)`. -/
theorem C45_sequence (n k L : Nat) (hn : 0 < n) (hb : n ≤ 2 ^ 63) (xs ys : List Nat) (hx : xs.length = k ∧ ∀ x ∈ xs, x < n)
    (hy : ys.length = k ∧ ∀ y ∈ ys, y < n) :
    (Tapes L (fun t => ∃ t', intns n k t = some (xs, t'))).ncard = (Tapes L (fun t => ∃ t', intns n k t = some (ys, t'))).ncard :=
  (Fair.intns hn hb k).count ⟨hx, hy⟩ ⟨hy, hx⟩ L

/-- What a call of `NewKey` returned: id and letters. -/
def NewKeyGives (U : Unicode) (now expire : Int) (keepers : List Runes) (inst : Inst) (id rs : Runes) (t : Tape) : Prop :=
  ∃ k inst' t', newKey U now expire keepers inst t = some (k, inst', t') ∧ k.id.val = id ∧ k.runes = rs

theorem newKeyGives_iff {U : Unicode} {now expire : Int} {keepers : List Runes} {inst : Inst} {id rs : Runes} {t : Tape} :
    NewKeyGives U now expire keepers inst id rs t ↔ ∃ t', keyP U inst.groupSize (newKeyLength inst.keyLength inst.groupSize)
      (inst.keys.map (fun k => k.id.val)) t = some ((id, rs), t') := by
  rw [← newKey_keyP U now expire keepers]
  simp only [Option.map_eq_some_iff, Prod.mk.injEq, Prod.exists, NewKeyGives]
  constructor
  · rintro ⟨k, i, t', h, h1, h2⟩; exact ⟨t', k, i, t', h, ⟨h1, h2⟩, rfl⟩
  · rintro ⟨t', k, i, t2, h, ⟨h1, h2⟩, rfl⟩; exact ⟨k, i, t2, h, h1, h2⟩

/-- C45, `NewKey`: all pairs of a free id and a string of letters of the right length are equally likely, redrawn ids included. -/
theorem C45_key (U : Unicode) (now expire : Int) (keepers : List Runes) (inst : Inst) (hg : inst.groupSize ≠ 0) (L : Nat)
    (id rs id' rs' : Runes)
    (hid : LetterString inst.groupSize id) (hid' : LetterString inst.groupSize id')
    (hf : ¬ InFold U id (inst.keys.map (fun k => k.id.val))) (hf' : ¬ InFold U id' (inst.keys.map (fun k => k.id.val)))
    (hr : LetterString (newKeyLength inst.keyLength inst.groupSize) rs) (hr' : LetterString (newKeyLength inst.keyLength inst.groupSize) rs') :
    (Tapes L (NewKeyGives U now expire keepers inst id rs)).ncard = (Tapes L (NewKeyGives U now expire keepers inst id' rs')).ncard := by
  have h := (Fair.key U hg (newKeyLength inst.keyLength inst.groupSize) (inst.keys.map (fun k => k.id.val))).count
    (a := (id, rs)) (b := (id', rs')) ⟨⟨hid, hf, hr⟩, ⟨hid', hf', hr'⟩⟩ ⟨⟨hid', hf', hr'⟩, ⟨hid, hf, hr⟩⟩ L
  simp only [← newKeyGives_iff (now := now) (expire := expire) (keepers := keepers)] at h
  exact h

/-- C45: every free id with every string of letters is possible, so that the numbers of `C45_key` are not zero. -/
theorem C45_possible (U : Unicode) (now expire : Int) (keepers : List Runes) (inst : Inst) (id rs : Runes)
    (hid : LetterString inst.groupSize id) (hf : ¬ InFold U id (inst.keys.map (fun k => k.id.val)))
    (hr : LetterString (newKeyLength inst.keyLength inst.groupSize) rs) :
    0 < (Tapes (inst.groupSize + newKeyLength inst.keyLength inst.groupSize) (NewKeyGives U now expire keepers inst id rs)).ncard := by
  rw [Set.ncard_pos (tapes_finite _ _)]
  have lp : ∀ {k : Nat} {s : Runes}, LetterString k s → ∀ t, lettersP k ((s.map unletter).map wordFor ++ t) = some (s, t) := by
    intro k s hs t
    obtain ⟨h1, h2⟩ := hs.inv
    unfold lettersP
    have := intns26_words (s.map unletter) t h2.2
    rw [h2.1] at this
    rw [this]
    simp only [Option.map_some, h1]
  have hw : ∀ {k : Nat} {s : Runes}, LetterString k s → Words ((s.map unletter).map wordFor) := by
    intro k s hs w hm
    obtain ⟨x, hx, rfl⟩ := List.mem_map.1 hm
    have := hs.inv.2.2 x hx
    unfold wordFor
    rw [Nat.shiftLeft_eq]; omega
  refine ⟨(id.map unletter).map wordFor ++ (rs.map unletter).map wordFor, Words_append.2 ⟨hw hid, hw hr⟩, by simp [hid.1, hr.1], ?_⟩
  rw [newKeyGives_iff]
  refine ⟨[], ?_⟩
  unfold keyP seqP freshP
  simp only [retry, lp hid]
  rw [if_neg (by unfold takenB; simpa using hf)]
  have := lp hr []
  rw [List.append_nil] at this
  simp only [this]

/-- The key lists added by `GenerateKeys`: ids and letters. -/
def GenerateGives (U : Unicode) (now : Nat → Int) (start n : Int) (expire : Option (Outcome Int)) (keepers : List Runes) (inst : Inst)
    (l : List (Runes × Runes)) (t : Tape) : Prop :=
  ∃ inst' t', generateKeys U now start n expire keepers inst t = some (.ok (), inst', t') ∧
    (inst'.keys.drop inst.keys.length).map (fun k => (k.id.val, k.runes)) = l

theorem freshKeys_of {U : Unicode} {gs m : Nat} : ∀ {used : List Runes} {l : List (Runes × Runes)},
    (∀ p ∈ l, LetterString gs p.1 ∧ LetterString m p.2) → (∀ p ∈ l, ¬ InFold U p.1 used) →
    (l.map Prod.fst).Pairwise (fun a b => ¬ SameFold U a b) → FreshKeys U gs m used l := by
  intro used l
  induction l generalizing used with
  | nil => intros; trivial
  | cons p l ih =>
    intro h1 h2 h3
    rw [List.map_cons, List.pairwise_cons] at h3
    refine ⟨⟨(h1 p (by simp)).1, h2 p (by simp), (h1 p (by simp)).2⟩, ih (fun q hq => h1 q (by simp [hq])) ?_ h3.2⟩
    rintro q hq ⟨b, hb, he⟩
    rcases List.mem_append.1 hb with hb | hb
    · exact h2 q (by simp [hq]) ⟨b, hb, he⟩
    · rw [List.mem_singleton] at hb
      subst hb
      exact h3.1 q.1 (List.mem_map.2 ⟨q, hq, rfl⟩) he.symm

/-- C45, `GenerateKeys`: given the ids of the new keys, all assignments of letters to all of them are equally likely. -/
theorem C45_keys (U : Unicode) (now : Nat → Int) (start e : Int) (n : Int) (expire : Option (Outcome Int))
    (he : expire = none ∨ expire = some (.ok e)) (keepers : List Runes) (inst : Inst) (hg : inst.groupSize ≠ 0) (L : Nat)
    (l l' : List (Runes × Runes)) (hlen : l.length = n.toNat) (hsame : l.map Prod.fst = l'.map Prod.fst)
    (hl : ∀ p ∈ l, LetterString inst.groupSize p.1 ∧ LetterString (newKeyLength inst.keyLength inst.groupSize) p.2)
    (hl' : ∀ p ∈ l', LetterString inst.groupSize p.1 ∧ LetterString (newKeyLength inst.keyLength inst.groupSize) p.2)
    (hfree : ∀ p ∈ l, ¬ InFold U p.1 (inst.keys.map (fun k => k.id.val)))
    (hdist : (l.map Prod.fst).Pairwise (fun a b => ¬ SameFold U a b)) :
    (Tapes L (GenerateGives U now start n expire keepers inst l)).ncard = (Tapes L (GenerateGives U now start n expire keepers inst l')).ncard := by
  obtain ⟨x, hx⟩ : ∃ x, ∀ t, generateKeys U now start n expire keepers inst t =
      (generateLoop U now x keepers n.toNat inst t).map (fun p => (.ok (), p.1, p.2)) := by
    rcases he with rfl | rfl
    · exact ⟨_, fun t => rfl⟩
    · exact ⟨_, fun t => rfl⟩
  have hgives : ∀ (l : List (Runes × Runes)) (t : Tape), GenerateGives U now start n expire keepers inst l t ↔
      ∃ t', keysP U inst.groupSize (newKeyLength inst.keyLength inst.groupSize) n.toNat (inst.keys.map (fun k => k.id.val)) t = some (l, t') := by
    intro l t
    rw [← (generateLoop_keysP U now x keepers n.toNat inst t).1]
    simp only [GenerateGives, hx, Option.map_eq_some_iff, Prod.mk.injEq, Prod.exists, true_and]
    constructor
    · rintro ⟨i, t', ⟨i2, t2, h, rfl, rfl⟩, hk⟩; exact ⟨t2, i2, t2, h, hk, rfl⟩
    · rintro ⟨t', i, t2, h, hk, rfl⟩; exact ⟨i, t2, ⟨i, t2, h, rfl, rfl⟩, hk⟩
  have hfree' : ∀ p ∈ l', ¬ InFold U p.1 (inst.keys.map (fun k => k.id.val)) := by
    intro p hp
    have : p.1 ∈ l'.map Prod.fst := List.mem_map.2 ⟨p, hp, rfl⟩
    rw [← hsame] at this
    obtain ⟨q, hq, e⟩ := List.mem_map.1 this
    rw [← e]; exact hfree q hq
  have f1 := freshKeys_of hl hfree hdist
  have f2 := freshKeys_of hl' hfree' (hsame ▸ hdist)
  have h := (Fair.keys U hg (newKeyLength inst.keyLength inst.groupSize) n.toNat (inst.keys.map (fun k => k.id.val))).count
    (a := l) (b := l') ⟨hlen, hsame, f1, f2⟩
    ⟨by rw [← hlen, ← List.length_map (f := Prod.fst), ← hsame, List.length_map], hsame.symm, f2, f1⟩ L
  simp only [← hgives] at h
  exact h

/-- C45, message ids: all free ids of four letters and digits are equally likely. -/
theorem C45_messageId (msgs : List Msg) (L : Nat) (id id' : Runes) (hid : AlnumString 4 id) (hid' : AlnumString 4 id')
    (hf : ∀ m ∈ msgs, m.id ≠ id) (hf' : ∀ m ∈ msgs, m.id ≠ id') :
    (Tapes L (fun t => ∃ t', newUniqueMessageId msgs t = some (id, t'))).ncard =
    (Tapes L (fun t => ∃ t', newUniqueMessageId msgs t = some (id', t'))).ncard := by
  have free : ∀ {id : Runes}, id.length = 4 → (∀ m ∈ msgs, m.id ≠ id) → containsMessageId msgs (some id) = false := by
    intro id hl h
    rw [Bool.eq_false_iff]
    intro hc
    rw [containsMessageId_iff] at hc
    obtain ⟨m, hm, e⟩ := List.mem_map.1 hc
    exact h m hm e
  exact (Fair.messageId msgs).count ⟨⟨hid, hid'⟩, free hid'.1 hf'⟩ ⟨⟨hid', hid⟩, free hid.1 hf⟩ L

/-- The sets counted are finite, so that `ncard` is their number of elements. -/
theorem C45_finite (L : Nat) (C : Tape → Prop) : (Tapes L C).Finite := tapes_finite L C

end K431
