import Verif.LegendLemmas
import Verif.PropsCipher

/-!
# Properties of reading a ciphertext by the legend: C86, C87
-/

namespace K431
open Spec

/-- **C86.** `Decipher` reads any ciphertext, whoever wrote it, as a person does with the coding legend, the DIANA table and the pads (`ByHand`): it succeeds if
and only if the ciphertext is readable; the text is the one read; the pads marked are those taken.  If it fails, nothing is marked, and the text is that of the longest
beginning of the ciphertext that is readable. -/
theorem C86 {U : Unicode} (hU : U.Lawful) {f : Runes} {inst inst' : Inst} {m m' : Msg} {o : Outcome Unit} (hw : WellFormed inst.keys) (hg : inst.groupSize ≠ 0) {k : Key}
    (hk : k ∈ inst.keys) (hid : IdOf U m.keyId.val k) (hkl : m.keyId.val.length = inst.groupSize) (hl : inst.groupSize ≤ m.cipherText.length)
    (h : decipher U f inst m = (o, inst', m')) :
    (o = .ok () ↔ ∃ text ids, ByHand inst.groupSize inst.keys (Reader.fresh k.runes) m.cipherText text ids) ∧
    (∀ text ids, ByHand inst.groupSize inst.keys (Reader.fresh k.runes) m.cipherText text ids →
      m'.plainText = text ∧ inst' = { inst with keys := inst.keys.map (fun x => { x with used := x.used || decide (x.id.val ∈ k.id.val :: ids) }) }) ∧
    (o ≠ .ok () → inst' = inst ∧ ∃ a z b ids, m.cipherText = a ++ z :: b ∧ ByHand inst.groupSize inst.keys (Reader.fresh k.runes) a m'.plainText ids ∧
      ∀ text ids', ¬ ByHand inst.groupSize inst.keys (Reader.fresh k.runes) (a ++ [z]) text ids') := by
  obtain ⟨j, hj⟩ := List.mem_iff_getElem?.1 hk
  rw [decipher_run hU hw hj hid hkl hl] at h
  have hsim := AtThing.fresh hj [j] []
  have hmark : ∀ {text : Runes} {ids : List Runes}, ByHand inst.groupSize inst.keys (Reader.fresh k.runes) m.cipherText text ids →
      o = .ok () ∧ m'.plainText = text ∧ inst' = { inst with keys := inst.keys.map (fun x => { x with used := x.used || decide (x.id.val ∈ k.id.val :: ids) }) } := by
    intro text ids hr
    obtain ⟨d, js, h1, h2, h3, h4⟩ := hr.run hU hg hw hsim
    rw [h1] at h
    simp only [Prod.mk.injEq] at h
    obtain ⟨rfl, rfl, rfl⟩ := h
    refine ⟨rfl, by simpa using h2, ?_⟩
    have : Named inst.keys (j :: js) (k.id.val :: ids) := .cons ⟨k, hj, rfl⟩ h4
    rw [h3, show [j] ++ js = j :: js from rfl, marks_by_id hw this]
  refine ⟨⟨?_, fun ⟨t, i, hr⟩ => (hmark hr).1⟩, fun t i hr => (hmark hr).2, ?_⟩
  · rintro rfl
    rcases hd : decLoop U inst.groupSize inst.keys m.cipherText ⟨j, 0, [], newState, [j], []⟩ with ⟨d | e | _, p⟩
    · obtain ⟨text, ids, js, hr, -⟩ := decLoop_sound hU hg hw _ (Nat.le_refl _) hsim hd
      exact ⟨text, ids, hr⟩
    · rw [hd] at h; simp at h
    · rw [hd] at h; simp at h
  · intro hne
    rcases hd : decLoop U inst.groupSize inst.keys m.cipherText ⟨j, 0, [], newState, [j], []⟩ with ⟨d | e | _, p⟩
    · rw [hd] at h; simp only [Prod.mk.injEq] at h; exact absurd h.1.symm hne
    · rw [hd] at h
      simp only [Prod.mk.injEq] at h
      obtain ⟨rfl, rfl, rfl⟩ := h
      obtain ⟨a, z, b, d1, e1, e2, e3⟩ := decLoop_err hd
      obtain ⟨text, ids, js, hr, f1, -⟩ := decLoop_sound hU hg hw _ (Nat.le_refl _) hsim e2
      refine ⟨rfl, a, z, b, ids, e1, ?_, ?_⟩
      · rw [decLoop_text e2, f1]; exact hr
      · intro t i hr'
        obtain ⟨d2, js2, g1, -⟩ := hr'.run hU hg hw hsim
        rw [decLoop_app e2] at g1
        simp [decLoop, e3] at g1
    · exact absurd (by rw [hd]) (decLoop_inv hU m.cipherText _ _ (DInv.start _ hg _ j k hj)).1

/-- A ciphertext reads in one way only. -/
theorem C86_unique {keys : List Key} (hw : WellFormed keys) {g : Nat} (hg : g ≠ 0) {k : Key} (hk : k ∈ keys) {cipher t t' : Runes} {ids ids' : List Runes}
    (h : ByHand g keys (Reader.fresh k.runes) cipher t ids) (h' : ByHand g keys (Reader.fresh k.runes) cipher t' ids') : t = t' ∧ ids = ids' := by
  obtain ⟨j, hj⟩ := List.mem_iff_getElem?.1 hk
  obtain ⟨d, js, h1, h2, h3, h4⟩ := h.run unicode15_lawful hg hw (AtThing.fresh hj [j] [])
  obtain ⟨d', js', g1, g2, g3, g4⟩ := h'.run unicode15_lawful hg hw (AtThing.fresh hj [j] [])
  rw [h1] at g1
  simp only [Prod.mk.injEq, Outcome.ok.injEq] at g1
  obtain ⟨rfl, -⟩ := g1
  rw [h2] at g2
  rw [h3] at g3
  have e1 : t = t' := by simpa using g2
  have e2 : js = js' := by simpa using g3
  subst e2
  exact ⟨e1, h4.unique g4⟩

/-- What `Encipher` writes can be read by hand: with the pads of the store, the text comes out. -/
theorem C86_by_hand {U : Unicode} (hU : U.Lawful) {noise : Nat → Rune} {f : Runes} {inst inst' : Inst} {m m' : Msg} (hw : WellFormed inst.keys) (hg : inst.groupSize ≠ 0)
    (htext : ∀ c ∈ m.plainText, c ∈ alphabet) (h : encipher U noise f inst m = (.ok (), inst', m')) :
    ∃ k ∈ inst.keys, IdOf U m'.keyId.val k ∧ ∃ ids, ByHand inst.groupSize inst.keys (Reader.fresh k.runes) m'.cipherText m.plainText ids := by
  obtain ⟨i2, m2, h1, h2⟩ := C10_round_trip U hU noise f [] inst inst' m m' htext h inst rfl hw (Or.inl (fun k hk => ⟨k, hk, rfl, rfl⟩)) m' rfl rfl
  obtain ⟨a, b, k, hk, hid⟩ := decipher_ok_key hU hw h1
  obtain ⟨c, d, -⟩ := C86 hU hw hg hk hid a b h1
  obtain ⟨t, ids, hr⟩ := c.1 rfl
  refine ⟨k, hk, hid, ids, ?_⟩
  rw [← h2, (d t ids hr).1]
  exact hr

/-- non-vacuity of `C86`: a ciphertext that `Encipher` never makes, read with the pads of the two-key example: "B", switch table, "case", switch table, "c", switch table,
and a change of key that breaks off -/
example : ByHand 1 ex2.keys (Reader.fresh (lit "QWERTYUIOP")) (lit "IEYJECH") (lit "Bc") [] := by
  refine ⟨lit "IEYJEC", lit "H", ⟨lit "UIOP", true, true⟩, rfl, ?_, .key (es := []) (zs := []) (by decide) trivial (by decide)⟩
  refine .cons (z := lit "I") (t := lit "B") (i := []) (.char (e := 66) (by decide) (by decide)) ?_
  refine .cons (z := lit "E") (t := []) (i := []) (.switch (by decide)) ?_
  refine .cons (z := lit "Y") (t := []) (i := []) (.case (by decide)) ?_
  refine .cons (z := lit "J") (t := []) (i := []) (.switch (by decide)) ?_
  refine .cons (z := lit "E") (t := lit "c") (i := []) (.char (e := 67) (c := 67) (by decide) (by decide)) ?_
  refine .cons (z := lit "C") (t := []) (i := []) (.switch (by decide)) ?_
  exact .nil

/-- `Decipher` reads it too -/
example : WellFormed ex2.keys ∧ (let r := decipher unicode15 [] ex2 { exMsg "" with keyId := ⟨1, lit "A"⟩, cipherText := lit "IEYJECH" }
    r.1 = .ok () ∧ r.2.2.plainText = lit "Bc" ∧ r.2.1.keys.map Key.used = [true, false]) := by decide

/-- and one that cannot be read: "binary" in the middle; the text before it is there, no key is marked -/
example : (let r := decipher unicode15 [] ex2 { exMsg "" with keyId := ⟨1, lit "A"⟩, cipherText := lit "IEZA" }
    r.1 = .err .binaryMode ∧ r.2.2.plainText = lit "B" ∧ r.2.1 = ex2) := by decide

/-- **C87, lost end.** If a ciphertext can be deciphered, so can each beginning of it that has the letters of a group, and the text is a beginning of the text. -/
theorem C87_cut {U : Unicode} (hU : U.Lawful) {f : Runes} {inst i1 i2 : Inst} {m m1 m2 : Msg} {o : Outcome Unit} (hw : WellFormed inst.keys) {k : Key}
    (hk : k ∈ inst.keys) (hid : IdOf U m.keyId.val k) (hkl : m.keyId.val.length = inst.groupSize) {a b : Runes} (hc : m.cipherText = a ++ b) (hl : inst.groupSize ≤ a.length)
    (h : decipher U f inst m = (.ok (), i1, m1)) (h' : decipher U f inst { m with cipherText := a } = (o, i2, m2)) :
    o = .ok () ∧ m2.plainText <+: m1.plainText := by
  obtain ⟨j, hj⟩ := List.mem_iff_getElem?.1 hk
  rw [decipher_run hU hw hj hid hkl (by rw [hc]; simp; omega), hc, decLoop_append] at h
  rw [decipher_run (m := { m with cipherText := a }) hU hw hj hid hkl hl] at h'
  dsimp only at h'
  rcases hd : decLoop U inst.groupSize inst.keys a ⟨j, 0, [], newState, [j], []⟩ with ⟨d | e | _, p⟩
  · rw [hd] at h h'
    dsimp only at h h'
    simp only [Prod.mk.injEq] at h'
    obtain ⟨rfl, rfl, rfl⟩ := h'
    refine ⟨rfl, ?_⟩
    have hp := decLoop_text hd
    have hfr := decLoop_frame U inst.groupSize inst.keys b d d.plain
    rw [show ({ d with plain := d.plain } : DState) = d from rfl] at hfr
    rw [hfr] at h
    generalize decLoop U inst.groupSize inst.keys b { d with plain := [] } = R at h
    rcases R with ⟨d2 | e | _, q⟩
    · simp only [Prod.mk.injEq] at h
      obtain ⟨-, -, rfl⟩ := h
      rw [hp]; exact List.prefix_append _ _
    · simp at h
    · simp at h
  · rw [hd] at h; simp at h
  · rw [hd] at h; simp at h

/-- **C87, damaged end.** What can be read up to some letter is in the text, whatever follows, also if `Decipher` fails. -/
theorem C87_beginning {U : Unicode} (hU : U.Lawful) {f : Runes} {inst i1 : Inst} {m m1 : Msg} {o : Outcome Unit} (hw : WellFormed inst.keys) (hg : inst.groupSize ≠ 0) {k : Key}
    (hk : k ∈ inst.keys) (hid : IdOf U m.keyId.val k) (hkl : m.keyId.val.length = inst.groupSize) {a b t : Runes} {ids : List Runes} (hc : m.cipherText = a ++ b)
    (hl : inst.groupSize ≤ m.cipherText.length) (ha : ByHand inst.groupSize inst.keys (Reader.fresh k.runes) a t ids) (h : decipher U f inst m = (o, i1, m1)) :
    t <+: m1.plainText := by
  obtain ⟨j, hj⟩ := List.mem_iff_getElem?.1 hk
  rw [decipher_run hU hw hj hid hkl hl, hc] at h
  obtain ⟨d, js, h1, h2, h3, h4⟩ := ha.run hU hg hw (AtThing.fresh hj [j] [])
  have hfr := decLoop_frame U inst.groupSize inst.keys b d d.plain
  rw [show ({ d with plain := d.plain } : DState) = d from rfl] at hfr
  rw [decLoop_app h1, hfr] at h
  have h2 : d.plain = t := by simpa using h2
  generalize decLoop U inst.groupSize inst.keys b { d with plain := [] } = R at h
  rcases R with ⟨d2 | e | _, q⟩ <;>
  · simp only [Prod.mk.injEq] at h
    obtain ⟨-, -, rfl⟩ := h
    rw [h2]; exact List.prefix_append _ _

/-- **C87, one wrong letter.** If a letter stands for a character, and the wrong letter in its place does too, then one character of the text is wrong, and nothing else: the rest of the
text, the keys marked, and whether `Decipher` succeeds are the same. -/
theorem C87_letter {U : Unicode} (hU : U.Lawful) {f : Runes} {inst i1 i2 : Inst} {m m1 m2 : Msg} {o o' : Outcome Unit} (hw : WellFormed inst.keys) (hg : inst.groupSize ≠ 0) {k : Key}
    (hk : k ∈ inst.keys) (hid : IdOf U m.keyId.val k) (hkl : m.keyId.val.length = inst.groupSize) {a b t pad : Runes} {ids : List Runes} {p e e' z z' c c' : Rune} {second small : Bool}
    (hl : inst.groupSize ≤ (a ++ z :: b).length)
    (ha : ReadsOn inst.groupSize inst.keys (Reader.fresh k.runes) a t ids ⟨p :: pad, second, small⟩)
    (ht : Trigraph p e z) (hc : Codes second e c) (ht' : Trigraph p e' z') (hc' : Codes second e' c')
    (h : decipher U f inst { m with cipherText := a ++ z :: b } = (o, i1, m1)) (h' : decipher U f inst { m with cipherText := a ++ z' :: b } = (o', i2, m2)) :
    o = o' ∧ i1 = i2 ∧ ∃ u, m1.plainText = t ++ cased small c :: u ∧ m2.plainText = t ++ cased small c' :: u := by
  obtain ⟨j, hj⟩ := List.mem_iff_getElem?.1 hk
  rw [decipher_run (m := { m with cipherText := a ++ z :: b }) hU hw hj hid hkl hl] at h
  rw [decipher_run (m := { m with cipherText := a ++ z' :: b }) hU hw hj hid hkl (by simpa using hl)] at h'
  dsimp only at h h'
  obtain ⟨d, js, h1, h2, h3, h4, h5⟩ := ha.run hU hg hw (AtThing.fresh hj [j] [])
  rw [decLoop_app h1] at h h'
  obtain ⟨d1, e1, -, -, -, e5⟩ := (h2.step (U := U) hU hg ht).1 c hc
  obtain ⟨d2, f1, -, -, -, f5⟩ := (h2.step (U := U) hU hg ht').1 c' hc'
  simp only [decLoop, e1] at h
  simp only [decLoop, f1] at h'
  have g1 := decLoop_frame U inst.groupSize inst.keys b d1 d1.plain
  have g2 := decLoop_frame U inst.groupSize inst.keys b d2 d2.plain
  rw [show ({ d1 with plain := d1.plain } : DState) = d1 from rfl] at g1
  rw [show ({ d2 with plain := d2.plain } : DState) = d2 from rfl] at g2
  rw [g1] at h
  rw [g2] at h'
  have g3 : ({ d1 with plain := [] } : DState) = { d2 with plain := [] } := by rw [e5, f5]
  have g4 : d1.plain = d.plain ++ [cased small c] := by rw [e5]; rfl
  have g5 : d2.plain = d.plain ++ [cased small c'] := by rw [f5]; rfl
  rw [g3] at h
  have h3 : d.plain = t := by simpa using h3
  generalize decLoop U inst.groupSize inst.keys b { d2 with plain := [] } = R at h h'
  rcases R with ⟨d2 | e | _, q⟩ <;>
  · simp only [Prod.mk.injEq] at h h'
    obtain ⟨rfl, rfl, rfl⟩ := h
    obtain ⟨rfl, rfl, rfl⟩ := h'
    exact ⟨rfl, rfl, q, by simp [h3, g4], by simp [h3, g5]⟩

/-- non-vacuity of `C87_letter`: "BAC", with the second letter wrong, is "BKC"; a wrong letter for "switch table" would spoil all that follows -/
example : ∃ a t pad p, ReadsOn 1 ex2.keys (Reader.fresh (lit "QWERTYUIOP")) a t [] ⟨p :: pad, false, false⟩ ∧ Trigraph p 65 68 ∧ Codes false 65 65 ∧
    Trigraph p 75 84 ∧ Codes false 75 75 :=
  ⟨lit "I", lit "B", lit "ERTYUIOP", 87,
    .cons (z := lit "I") (t := lit "B") (i := []) (.char (e := 66) (by decide) (by decide)) .nil, by decide, by decide, by decide, by decide⟩

example : (let run := fun c => (decipher unicode15 [] ex2 { exMsg "" with keyId := ⟨1, lit "A"⟩, cipherText := lit c }).2.2.plainText
    run "IDT" = lit "BAC" ∧ run "ITT" = lit "BKC" ∧ run "ID" = lit "BA" ∧ run "IET" = lit "B2") := by decide

end K431
