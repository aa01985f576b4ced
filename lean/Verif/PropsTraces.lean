import Verif.TraceLemmas
import Verif.PropsCipher

/-!
# What stays in memory after enciphering and deciphering (C93, C94)
-/

namespace K431
open Spec

/-- non-vacuity: the arrays are those of the computation that `encipher` and `decipher` describe -/
example (grow : Nat → Nat → Nat) (U : Unicode) (noise : Nat → Rune) (noises : Nat → Nat → Rune) (f : Runes) (inst : Inst) (m : Msg) :
    (encipherWork grow U noise noises f inst m).1 = encipherT U noise f inst m ∧ (decipherWork grow U f inst m).1 = decipher U f inst m :=
  ⟨encipherWork_fst .., decipherWork_fst ..⟩

/-! ## C93: Encipher -/

/-- **C93**, full statement: when `Encipher` has returned, every array that held coded text has been overwritten. -/
def C93_Statement : Prop :=
  ∀ (grow : Nat → Nat → Nat) (U : Unicode), U.Lawful → ∀ (noise : Nat → Rune) (noises : Nat → Nat → Rune) (f : Runes) (inst : Inst) (m : Msg),
    ∀ w ∈ (encipherWork grow U noise noises f inst m).2, ∀ a ∈ w.arrays, Erased noises a

/-- **C93, what is left.** After a successful `Encipher` the array of each chunk begins with its coded text; the coded texts in order are as long as the ciphertext, and each letter of
the ciphertext is made from the letter there and a letter of a pad.  So coded text and ciphertext give the pad away, letter by letter. -/
theorem C93_left {grow : Nat → Nat → Nat} {U : Unicode} {noise : Nat → Rune} {noises : Nat → Nat → Rune} {f : Runes} {inst inst' : Inst} {m m' : Msg} {chunks : List Chunk} {works : List Work}
    (h : encipherWork grow U noise noises f inst m = ((.ok chunks, inst', m'), works)) :
    ∃ texts pads : List Runes, List.Forall₂ (fun t w => StillHolds t w.cells) texts works ∧
      List.Forall₂ (fun t p => t.length = p.length ∧ ∃ k ∈ inst'.keys, p <+: k.runes) texts pads ∧
      m'.cipherText.length = texts.flatten.length ∧
      ∀ (n : Nat) (p e z : Rune), pads.flatten[n]? = some p → texts.flatten[n]? = some e → m'.cipherText[n]? = some z → Trigraph p e z ∧ trigraph e z = .ok p := by
  have hh := encipherWork_held h
  have he := encipherWork_fst grow U noise noises f inst m
  rw [h] at he
  obtain ⟨inst1, m1, i, s, out, hE⟩ := encipherT_ok he.symm
  obtain ⟨pads, h1, h2, h3⟩ := cipherChunks_pads hE.ciphered
  have hm : m'.cipherText = out := by rw [hE.hm]
  have hi : inst'.keys = s.keys := by rw [hE.hinst]
  refine ⟨chunks.map Chunk.enc, pads, ?_, ?_, by rw [hm, h2], ?_⟩
  · rw [List.forall₂_map_left_iff]
    refine List.Forall₂.imp ?_ hh.flip
    intro c w hw
    have := hw.read
    exact ⟨w.cells.drop w.len, by rw [← this, List.take_append_drop]⟩
  · rw [List.forall₂_map_left_iff, hi]
    exact h1
  · intro n p e z hp he hz
    have := h3 n p e z hp he (by rw [← hm]; exact hz)
    exact ⟨this, (trigraph_ok_iff e z p).2 this.swap12.swap23⟩

/-- three letters: the array of the only chunk still begins with them -/
theorem exHej (grow : Nat → Nat → Nat) : ∃ w, (encipherWork grow unicode15 (fun _ => 0) (fun _ _ => 0) [] ex2 (exMsg "HEJ")).2 = [w] ∧ StillHolds (lit "HEJ") w.cells := by
  have e := encipherWork_fst grow unicode15 (fun _ => 0) (fun _ _ => 0) [] ex2 (exMsg "HEJ")
  have e0 : (encipherT unicode15 (fun _ => 0) [] ex2 (exMsg "HEJ")).1 = .ok [⟨lit "HEJ", 0⟩] := by decide
  rcases hR : encipherWork grow unicode15 (fun _ => 0) (fun _ _ => 0) [] ex2 (exMsg "HEJ") with ⟨⟨o, i, m⟩, ws⟩
  rw [hR] at e
  rw [← e] at e0
  dsimp only at e0
  subst e0
  have := encipherWork_held hR
  rcases this with _ | ⟨h1, h2⟩
  cases h2
  have h3 : _ = lit "HEJ" := h1.read
  exact ⟨_, rfl, ⟨_, by rw [← h3]; exact List.take_append_drop _ _⟩⟩

/-- **C93 is violated**: `Encipher` wipes its chunks only if it fails. -/
theorem C93_violated : ¬ C93_Statement := by
  intro h
  obtain ⟨w, hw, x, hx⟩ := exHej (fun c _ => 2 * c)
  obtain ⟨j, n, z, h1⟩ := h (fun c _ => 2 * c) unicode15 unicode15_lawful (fun _ => 0) (fun _ _ => 0) [] ex2 (exMsg "HEJ") w (by rw [hw]; simp) w.cells (by simp [Work.arrays])
  have : (72 : Int) ∈ (List.range n).map (fun _ => (0 : Int)) ++ List.replicate z 0 := by rw [← h1, ← hx]; simp [lit]
  simp at this

/-- **C93, what holds.** If `Encipher` does not succeed, no array holds coded text any more, for keys of at most 697 letters (the default is 350): the chunks have room for 700 letters
and are never outgrown, and all of them are wiped. -/
theorem C93_partial {grow : Nat → Nat → Nat} {U : Unicode} {noise : Nat → Rune} {noises : Nat → Nat → Rune} {f : Runes} {inst : Inst} {m : Msg}
    (hk : ∀ k ∈ inst.keys, k.runes.length ≤ 697) (hg : inst.groupSize ≤ 694) (hf : ∀ chunks, (encipherT U noise f inst m).1 ≠ .ok chunks) :
    ∀ w ∈ (encipherWork grow U noise noises f inst m).2, ∀ a ∈ w.arrays, Erased noises a :=
  encipherWork_erased hk hg (fun c => by rw [encipherWork_fst]; exact hf c)

/-- non-vacuity of `C93_partial`: a text that `Encipher` cannot finish, since the keys run out -/
example : (∀ k ∈ ex2.keys, k.runes.length ≤ 697) ∧ ex2.groupSize ≤ 694 ∧ (encipherT unicode15 (fun _ => 0) [] ex2 (exMsg "HEJ DU DIN GAMLE BJOERN")).1.val? = none := by decide

/-! ## C94: Decipher -/

/-- **C94**, full statement: when the plaintext that `Decipher` found has been wiped, every array that held any of it has been overwritten. -/
def C94_Statement : Prop :=
  ∀ (grow : Nat → Nat → Nat) (U : Unicode), U.Lawful → ∀ (noise : Nat → Rune) (f : Runes) (inst : Inst) (m : Msg) (w : Work),
    (decipherWork grow U f inst m).2 = some w → ∀ a ∈ (w.wipe noise).arrays, Erased (fun _ => noise) a

/-- **C94, what is left.** Every array that the plaintext has outgrown is a beginning of the plaintext, and wiping does not touch it.  If an array is never replaced by one more than
twice as large (plus two), about half of the text is left. -/
theorem C94_left {grow : Nat → Nat → Nat} {U : Unicode} {noise : Nat → Rune} {f : Runes} {inst : Inst} {m : Msg} {w : Work} (h : (decipherWork grow U f inst m).2 = some w) :
    let text := (decipher U f inst m).2.2.plainText
    (w.wipe noise).arrays = w.old ++ [(w.wipe noise).cells] ∧ (∀ a ∈ w.old, a <+: text) ∧
    ((∀ c, grow c (c + 1) ≤ 2 * c + 2) → text ≠ [] → ∃ a ∈ w.old, a <+: text ∧ text.length ≤ 2 * a.length + 2) := by
  intro text
  have hw := decipherWork_snd h
  obtain ⟨h1, h2, -, h3⟩ := Work.grown (grow := grow) text
  have e : w = (Work.make 0).appends grow text := hw
  refine ⟨rfl, fun a ha => h2 a (by rw [← e]; exact ha), fun hg ht => ?_⟩
  obtain ⟨a, ha, hl⟩ := h3 hg ht
  exact ⟨a, by rw [e]; exact ha, h2 a ha, Nat.le_trans h1.room hl⟩

/-- **C94, what holds.** The array that the plaintext is in when it is wiped is overwritten; and all arrays are, if the text is no longer than the first array. -/
theorem C94_partial {grow : Nat → Nat → Nat} {U : Unicode} {noise : Nat → Rune} {f : Runes} {inst : Inst} {m : Msg} {w : Work} (h : (decipherWork grow U f inst m).2 = some w) :
    Erased (fun _ => noise) (w.wipe noise).cells ∧
    ((decipher U f inst m).2.2.plainText.length ≤ max 1 (grow 0 1) → ∀ a ∈ (w.wipe noise).arrays, Erased (fun _ => noise) a) := by
  have e := decipherWork_snd h
  have hc : w.Clean (decipher U f inst m).2.2.plainText := by
    rw [e]
    simpa using Work.appends_clean (grow := grow) (w := Work.make 0) (t := []) (decipher U f inst m).2.2.plainText ⟨rfl, 0, rfl⟩
  refine ⟨hc.wipe noise, fun hl a ha => ?_⟩
  simp only [Work.arrays, List.mem_append, List.mem_singleton] at ha
  rcases ha with ha | ha
  · have : a ∈ w.old := ha
    rw [e] at this
    rw [Work.short_old hl a this]
    exact ⟨0, 0, 0, rfl⟩
  · rw [ha]; exact hc.wipe noise

/-- a message for the first key of `ex2` -/
def exCipher (text : String) : Msg := { exMsg "" with keyId := ⟨1, lit "A"⟩, cipherText := lit text }

/-- **C94 is violated**: of three letters the first two stay, in an array that the text has outgrown. -/
theorem C94_violated : ¬ C94_Statement := by
  intro h
  have hx : decipherWork (fun c _ => 2 * c + 2) unicode15 [] ex2 (exCipher "IDT") = ((decipher unicode15 [] ex2 (exCipher "IDT")), some ⟨lit "BAC" ++ [0, 0, 0], 3, [[], lit "BA"]⟩) := by decide
  obtain ⟨j, n, z, h1⟩ := h _ unicode15 unicode15_lawful (fun _ => 0) [] ex2 (exCipher "IDT") _ (congrArg Prod.snd hx) (lit "BA") (by decide)
  have : (66 : Int) ∈ (List.range n).map (fun _ => (0 : Int)) ++ List.replicate z 0 := by rw [← h1]; decide
  simp at this

/-- non-vacuity of C94: what is left of a text of eight characters, growing as the Go library does -/
example : (let w := (Work.make 0).appends (fun c n => max n (2 * c)) (lit "BAC BAC "); w.old ++ [(w.wipe (fun _ => 0)).cells])
    = [[], lit "B", lit "BA", lit "BAC ", List.replicate 8 0] := by decide

end K431
