import Verif.ReadmeLemmas
import Verif.PropsLegend

/-!
# The instructions of README.md for working with pen and paper (C107)
-/

namespace K431
open Spec

/-- **C107, tables.** Both arrangements of the trigraph in the README, read as the README says, are the trigraph. -/
theorem C107_tables {m k : Int} (hm : IsLetter m) (hk : IsLetter k) (z : Int) :
    (lookUp m k = some z ↔ Trigraph m k z) ∧ (lookUpOther m k = some z ↔ Trigraph m k z) := by
  obtain ⟨a, ha, rfl⟩ := letter_cases hm
  obtain ⟨b, hb, rfl⟩ := letter_cases hk
  rw [lookUp_all a ha b hb, lookUpOther_all a ha b hb]
  have key : (some (65 + (25 - a - b : Int) % 26) = some z ↔ Trigraph (65 + (a : Nat)) (65 + (b : Nat)) z) := by
    simp only [Option.some.injEq, Trigraph, IsLetter, pos]
    omega
  exact ⟨key, key⟩

theorem lookUp_good : LooksRight lookUp := fun hm hk z => (C107_tables hm hk z).1
theorem lookUpOther_good : LooksRight lookUpOther := fun hm hk z => (C107_tables hm hk z).2

/-- **C107, the full statement**: whatever is enciphered by hand in one of the ways that the README describes is what the program writes. -/
def C107_Statement : Prop :=
  ∀ (pad text : Runes) (mixedUp : List Bool), (∀ c ∈ pad, IsLetter c) → (∀ c ∈ text, IsLetter c) → text.length ≤ pad.length →
    ∃ cipher, cipherChunk pad text = (.ok (), cipher) ∧ byTable lookUp mixedUp pad text = some cipher ∧ byTable lookUpOther mixedUp pad text = some cipher ∧
      byAddition pad text = some cipher

/-- **C107 does not hold**: by addition, A with the key A is A, but the program writes Z. -/
theorem C107_violated : ¬ C107_Statement := by
  intro h
  obtain ⟨c, h1, -, -, h2⟩ := h [65] [65] [] (by decide) (by decide) (by decide)
  have h3 : cipherChunk [65] [65] = (.ok (), [90]) := by decide
  have h4 : byAddition [65] [65] = some [65] := by decide
  rw [h3] at h1
  rw [h4] at h2
  simp only [Prod.mk.injEq, true_and] at h1
  simp only [Option.some.injEq] at h2
  rw [← h1] at h2
  exact absurd h2 (by decide)

/-- **C107, what does hold.** With either of the two printed tables, and with the roles of text and pad exchanged at any letters, one writes what the program writes; and
with either table, exchanging at any letters, one gets back the text.  Missing: addition modulo 26, the procedure that the README describes first (`C107_addition`). -/
theorem C107_partial (pad text : Runes) (mixedUp mixedUp' : List Bool) (hp : ∀ c ∈ pad, IsLetter c) (ht : ∀ c ∈ text, IsLetter c) (hl : text.length ≤ pad.length) :
    ∃ cipher, cipherChunk pad text = (.ok (), cipher) ∧ byTable lookUp mixedUp pad text = some cipher ∧ byTable lookUpOther mixedUp pad text = some cipher ∧
      byTable lookUp mixedUp' pad cipher = some text ∧ byTable lookUpOther mixedUp' pad cipher = some text := by
  obtain ⟨cipher, h1, h2⟩ := cipherChunk_enciphered text pad hp ht hl
  exact ⟨cipher, h1, byTable_good lookUp_good _ h2, byTable_good lookUpOther_good _ h2, byTable_good lookUp_good _ (enciphered_swap h2),
    byTable_good lookUpOther_good _ (enciphered_swap h2)⟩

/-- **C107, reading.** What a person reads with either table from a letter of the ciphertext and a letter of the pad is what reading by hand (`ByHand`, on which `C86` rests) means. -/
theorem C107_reading {p e z : Int} (hp : IsLetter p) (hz : IsLetter z) : (Trigraph p e z ↔ lookUp z p = some e) ∧ (Trigraph p e z ↔ lookUpOther p z = some e) := by
  rw [(C107_tables hz hp e).1, (C107_tables hp hz e).2]
  simp only [Trigraph]
  constructor <;> constructor <;> rintro ⟨a, b, c, d⟩ <;> exact ⟨by assumption, by assumption, by assumption, by omega⟩

/-- **C107, addition.** The procedure that the README describes first does not agree with the program in a single letter: neither when writing, nor when reading. -/
theorem C107_addition : ∀ (pad text : Runes), (∀ c ∈ pad, IsLetter c) → (∀ c ∈ text, IsLetter c) → text.length ≤ pad.length →
    ∃ cipher added taken, cipherChunk pad text = (.ok (), cipher) ∧ byAddition pad text = some added ∧ bySubtraction pad cipher = some taken ∧
      List.Forall₂ (· ≠ ·) cipher added ∧ List.Forall₂ (· ≠ ·) text taken := by
  intro pad text
  induction text generalizing pad with
  | nil => intro _ _ _; exact ⟨[], [], [], by cases pad <;> rfl, by cases pad <;> rfl, by cases pad <;> rfl, .nil, .nil⟩
  | cons e es ih =>
    intro hp ht hlen
    cases pad with
    | nil => simp at hlen
    | cons p pad =>
      obtain ⟨cs, as, ts, h1, h2, h3, h4, h5⟩ := ih pad (fun c hc => hp c (by simp [hc])) (fun c hc => ht c (by simp [hc])) (by simpa using hlen)
      obtain ⟨z, hz⟩ := trigraph_total (hp p (by simp)) (ht e (by simp))
      have hT := hz
      refine ⟨z :: cs, (65 + (pos e + pos p) % 26) :: as, (65 + (pos z - pos p) % 26) :: ts, by simp [cipherChunk, (trigraph_ok_iff _ _ _).2 hz, h1], by simp [byAddition, h2],
        by simp [bySubtraction, h3], .cons ?_ h4, .cons ?_ h5⟩ <;>
      · simp only [Trigraph, IsLetter, pos] at hT ⊢
        omega

/-- **C107, filling up.** A ciphertext written by hand, with any number of Z at the end of the text: `Decipher` succeeds, and the text is what was written. -/
theorem C107_fill {U : Unicode} (hU : U.Lawful) {f : Runes} {inst inst' : Inst} {m m' : Msg} {o : Outcome Unit} (hw : WellFormed inst.keys) (hg : inst.groupSize ≠ 0) {k : Key}
    (hk : k ∈ inst.keys) (hid : IdOf U m.keyId.val k) (hkl : m.keyId.val.length = inst.groupSize) (hl : inst.groupSize ≤ m.cipherText.length)
    {a text zs : Runes} {ids : List Runes} {r : Reader} {n : Nat} (ha : ReadsOn inst.groupSize inst.keys (Reader.fresh k.runes) a text ids r)
    (hz : Enciphered r.pad (List.replicate n switchLetter) zs) (hc : m.cipherText = a ++ zs) (h : decipher U f inst m = (o, inst', m')) :
    o = .ok () ∧ m'.plainText = text := by
  obtain ⟨r', h'⟩ := fill (g := inst.groupSize) (keys := inst.keys) n hz
  have hb : ByHand inst.groupSize inst.keys (Reader.fresh k.runes) m.cipherText text ids :=
    ⟨a ++ zs, [], r', by rw [hc, List.append_nil], by simpa using ha.append h', .nothing⟩
  obtain ⟨h1, h2, -⟩ := C86 hU hw hg hk hid hkl hl h
  exact ⟨h1.2 ⟨_, _, hb⟩, (h2 _ _ hb).1⟩

/-- the examples in the README: "HELLO WORLD" with the key "YNQCI CPWZH", and the key that leaves it as it is -/
example : byTable lookUp [] (lit "YNQCICPWZH") (lit "HELLOWORLD") = some (lit "UIYMDBWMPP") ∧
    byTable lookUpOther [true, false, true] (lit "YNQCICPWZH") (lit "UIYMDBWMPP") = some (lit "HELLOWORLD") ∧
    byTable lookUp [] (lit "LRDDXHXRDT") (lit "HELLOWORLD") = some (lit "HELLOWORLD") ∧
    cipherChunk (lit "YNQCICPWZH") (lit "HELLOWORLD") = (.ok (), lit "UIYMDBWMPP") := by
  unfold lookUp lookUpOther
  rw [readmeTable_codes, readmeOther_codes]
  decide +kernel

/-- the example of README.md:145-148, "4 minus number from the key, e.g 18 = 12 = L": the number is right, the letter with A=0 is M -/
example : bySubtraction (lit "S") (lit "E") = some (lit "M") := by decide

/-- what is written by addition is not readable by the program: "HELLO" with the key "YNQCI" -/
example : byAddition (lit "YNQCI") (lit "HELLO") = some (lit "FRBNW") ∧ (cipherChunk (lit "YNQCI") (lit "FRBNW")).2 = lit "WVIKV" := by decide

/-- non-vacuity of `C107_fill`: "B" and two Z, with a pad of the two-key example -/
example : WellFormed ex2.keys ∧ (∃ a r zs, ReadsOn 1 ex2.keys (Reader.fresh (lit "QWERTYUIOP")) a (lit "B") [] r ∧
    Enciphered r.pad (List.replicate 2 switchLetter) zs ∧ a ++ zs = lit "IEW") := by
  refine ⟨by decide, lit "I", ⟨lit "WERTYUIOP", false, false⟩, lit "EW", ?_, ?_, by decide⟩
  · exact .cons (z := lit "I") (t := lit "B") (i := []) (.char (e := 66) (by decide) (by decide)) .nil
  · exact ⟨by decide, by decide, trivial⟩

/-- the transcript in README.md:66-76: the text is coded in 43 letters, which with the id of the key are the 10 groups shown -/
example : (match encodeAll unicode15 newState (lit "Hello world, this is a short message.") [] with | .ok (_, coded) => coded.length | _ => 0) = 43 := by decide +kernel

end K431
