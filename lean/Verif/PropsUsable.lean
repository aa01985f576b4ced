import Verif.PropsFits
import Verif.PropsKeys
import Verif.StoreCmdLemmas
import Verif.Krypto

/-!
# C108: settings that are accepted can be used for sending
-/

namespace K431
open Spec

/-- **C108** for group sizes and key lengths with the property `P`: an instance without keys whose settings pass `Assert` gets `n` keys without keepers from `GenerateKeys`; then each text of at most `n` characters, all of them letters of the first line of the
coding legend, can be enciphered. -/
def C108_For (P : Nat → Nat → Prop) : Prop :=
  ∀ (U : Unicode), U.Lawful → ∀ (noise : Nat → Rune) (f : Runes) (now : Nat → Int) (start n : Int) (expire : Option (Outcome Int)) (k : Krypto) (inst' : Inst) (t t' : Tape) (m : Msg),
    assertSettings k = .ok () → P k.inst.groupSize k.inst.keyLength → k.inst.keys = [] →
    generateKeys U now start n expire [] k.inst t = some (.ok (), inst', t') →
    m.plainText ≠ [] → (∀ c ∈ m.plainText, c ∈ firstTable) → (m.plainText.length : Int) ≤ n → m.recipients = [] → m.keyId.val = [] → m.cipherText = [] →
    (encipher U noise f inst' m).1 = .ok ()

/-- **C108**, full statement: this holds for all settings that pass `Assert`. -/
def C108_Statement : Prop := C108_For (fun _ _ => True)

theorem assert_ok {k : Krypto} (h : assertSettings k = .ok ()) : 1 ≤ k.inst.groupSize ∧ 20 ≤ k.inst.keyLength := by
  unfold assertSettings at h
  repeat' split at h
  all_goals first | (cases h; done) | omega

theorem fresh_long {inst : Inst} {e : Int} {k : Key} (h : Fresh inst e k) (hl : 20 ≤ inst.keyLength) (hlt : inst.groupSize < inst.keyLength) :
    inst.groupSize + 3 ≤ k.runes.length := by
  obtain ⟨q, hq⟩ := h.whole
  have h1 := h.long
  have h2 : 2 ≤ q := by
    rcases q with _ | _ | q
    · omega
    · omega
    · omega
  have h3 : 2 * inst.groupSize ≤ q * inst.groupSize := Nat.mul_le_mul_right _ h2
  omega

theorem fresh_short {inst : Inst} {e : Int} {k : Key} (h : Fresh inst e k) (hl : 1 ≤ inst.keyLength) (hle : inst.keyLength ≤ inst.groupSize) :
    k.runes.length = inst.groupSize := by
  obtain ⟨q, hq⟩ := h.whole
  have h1 := h.long
  have h2 := h.notTooLong
  rcases q with _ | _ | q
  · omega
  · omega
  · have h3 : 2 * inst.groupSize ≤ (q + 1 + 1) * inst.groupSize := Nat.mul_le_mul_right _ (by omega)
    omega

theorem available_many {g : Nat} : ∀ (keys : List Key), (∀ k ∈ keys, Selectable g [] k ∧ g + 3 ≤ k.runes.length) → keys.length ≤ available g [] keys := by
  intro keys
  induction keys with
  | nil => intro _; simp
  | cons k ks ih =>
    intro h
    have h1 := ih (fun x hx => h x (by simp [hx]))
    obtain ⟨h2, h3⟩ := h k (by simp)
    have h4 : available g [] (k :: ks) = capacity g k + available g [] ks := by
      simp only [available, List.map_cons, List.sum_cons, if_pos h2]
    rw [h4, List.length_cons]
    unfold capacity
    omega

theorem fresh_wellFormed {U : Unicode} {inst : Inst} {e : Int} {keys : List Key} (hf : ∀ k ∈ keys, Fresh inst e k) (hd : DistinctNames U (keys.map (fun k => k.id.val))) : WellFormed keys := by
  refine ⟨?_, fun k hk => (hf k hk).idLetters⟩
  exact List.Pairwise.imp (fun {a b} (h : ¬ SameFold U a b) (he : a = b) => h (by rw [he]; rfl)) hd

/-- **C108**, what holds: it is true if the group size is less than the key length. -/
theorem C108_partial : C108_For (fun g l => g < l) := by
  intro U hU noise f now start n expire k inst' t t' m ha hlt hk hgen hp hal hn hr hid hct
  obtain ⟨hg, hl⟩ := assert_ok ha
  obtain ⟨new, nx, e, rfl, h2, -, -, h5, h6⟩ := (C24_generate U now start n expire [] k.inst inst' t t' _ (by omega) hgen).1 rfl
  simp only [hk, List.nil_append] at h6 ⊢
  have hkeep := generateKeys_keepers hgen (new := new) rfl
  have hsel : ∀ x ∈ new, Selectable k.inst.groupSize [] x ∧ k.inst.groupSize + 3 ≤ x.runes.length := by
    intro x hx
    have hf := h5 x hx
    refine ⟨⟨hf.unused, hf.idLength, ?_⟩, fresh_long hf hl hlt⟩
    have := (hkeep x hx).eq_nil
    unfold KeptBy
    rw [if_pos rfl]
    simpa [Key.names] using this
  refine ((C17_partial U hU noise f _ m (by simp only; omega) (fresh_wellFormed h5 (h6 (by simp [DistinctNames])))
    (fun x hx => (h5 x hx).letters) hp hid hct).2.1) hal (fun x hx _ => (hsel x hx).2) ?_
  rw [hr]
  refine Nat.le_trans ?_ (available_many new hsel)
  omega

/-- If the key length is at most the group size, nothing can be sent: whatever number of keys is made, no text can be enciphered with them. -/
theorem C108_dead (U : Unicode) (hU : U.Lawful) (noise : Nat → Rune) (f : Runes) (inst : Inst) (m : Msg) (hl : 1 ≤ inst.keyLength) (hle : inst.keyLength ≤ inst.groupSize)
    (hwf : WellFormed inst.keys) (hfresh : ∀ k ∈ inst.keys, ∃ e, Fresh inst e k) (hid : m.keyId.val = []) (hct : m.cipherText = [])
    (hp : m.plainText ≠ []) (hal : ∀ c ∈ m.plainText, c ∈ alphabet) : (encipher U noise f inst m).1 ≠ .ok () := by
  have hkeys : ∀ k ∈ inst.keys, ∀ c ∈ k.runes, IsLetter c := fun k hk => by obtain ⟨e, he⟩ := hfresh k hk; exact he.letters
  rw [C17_exact U hU noise f inst m (by omega) hwf hkeys hp hid hct hal]
  rcases hpl : padLengths inst.groupSize m.recipients inst.keys with _ | ⟨n, pads⟩
  · simp
  · have hn : n = inst.groupSize := by
      have : n ∈ padLengths inst.groupSize m.recipients inst.keys := by rw [hpl]; simp
      unfold padLengths at this
      obtain ⟨x, hx, rfl⟩ := List.mem_map.1 this
      obtain ⟨e, he⟩ := hfresh x (List.mem_filter.1 hx).1
      exact fresh_short he hl hle
    subst hn
    dsimp only
    rcases hm : m.plainText with _ | ⟨c, cs⟩
    · exact absurd hm hp
    · rcases pads with _ | ⟨n2, pads⟩
      · rw [layOut.eq_def]
        dsimp only
        rw [if_pos (by simp only [Pen.fresh]; omega)]
        simp
      · rw [layOut.eq_def]
        dsimp only
        rw [if_pos (by simp only [Pen.fresh]; omega)]
        have : decide ((Pen.fresh inst.groupSize 0).used + (Pen.fresh inst.groupSize 0).announce inst.groupSize ≤ (Pen.fresh inst.groupSize 0).len) = false := by
          simp only [Pen.fresh, Pen.announce]
          simp
        rw [this]
        rcases layOut inst.groupSize pads _ cs with _ | b <;> simp

/-- group size and key length both 20, which `Assert` accepts -/
def exWide : Krypto := { newBase with persistence := [65], inst := ⟨20, 20, 110, 30, [], [], lit "SA6MWA", 100⟩ }

/-- The statement is false: with a group size and a key length of 20 the letters of a key are not even enough to announce the next one. -/
theorem C108_violated : ¬ C108_Statement := by
  intro h
  have ha : assertSettings exWide = .ok () := by decide
  rcases hg : generateKeys unicode15 (fun _ => 0) 0 2 none [] exWide.inst (exTape "AAAAAAAAAAAAAAAAAAAAQWERTYUIOPASDFGHJKLZBBBBBBBBBBBBBBBBBBBBZXCVBNMQWERTYUIOPASD") with _ | ⟨o, inst', t'⟩
  · revert hg; decide +kernel
  · have ho : o = .ok () := by
      have : (generateKeys unicode15 (fun _ => 0) 0 2 none [] exWide.inst (exTape "AAAAAAAAAAAAAAAAAAAAQWERTYUIOPASDFGHJKLZBBBBBBBBBBBBBBBBBBBBZXCVBNMQWERTYUIOPASD")).map (fun p => p.1) = some (.ok ()) := by decide +kernel
      rw [hg] at this
      simpa using this
    subst ho
    have h1 := h unicode15 unicode15_lawful (fun _ => 0) [] _ _ _ _ exWide inst' _ t' (exMsg "A") ha trivial rfl hg (by decide) (by decide) (by decide) rfl rfl rfl
    obtain ⟨new, nx, e, rfl, -, -, -, h5, h6⟩ := (C24_generate unicode15 _ _ _ _ [] exWide.inst inst' _ t' _ (by decide) hg).1 rfl
    exact C108_dead unicode15 unicode15_lawful (fun _ => 0) [] _ (exMsg "A") (show 1 ≤ 20 by decide) (show 20 ≤ 20 by decide) (fresh_wellFormed h5 (h6 (by simp [DistinctNames, exWide])))
      (fun k hk => by
        have := h5 k (by simpa [exWide] using hk)
        exact ⟨e, this.idLength, this.idLetters, this.letters, this.whole, this.long, this.notTooLong, this.unused, this.good, this.expires, this.noComment⟩)
      rfl rfl (by decide) (by decide) h1

/-- non-vacuity of `C108_partial`: the settings of the program pass `Assert` -/
example : assertSettings { newBase with persistence := [65] } = .ok () ∧ newBase.inst.groupSize < newBase.inst.keyLength := by decide

end K431
