import Verif.EndLemmas
import Verif.PropsRandom
import Verif.Krypto

/-! # C119: making keys and messages comes to an end

`NewKey` and `NewUniqueMessageId` draw ids at random until they find one that is not in use.  The random source is uniform, so the
property is that they end with probability one.
-/

namespace K431
open Spec

/-- C119: with settings that `Assert` accepts, `GenerateKeys` ends with probability one. -/
def C119 (U : Unicode) : Prop :=
  ∀ (k : Krypto), assertSettings k = .ok () → ∀ (now : Nat → Int) (start n : Int) (expire : Option (Outcome Int)) (keepers : List Runes),
    Ends (fun t => generateKeys U now start n expire keepers k.inst t ≠ none)

/-- `GenerateKeys`, exactly: with a good expiry time it ends with probability one if there are at least as many free ids as keys are
asked for; if there are fewer it never returns, whatever the random source delivers. -/
theorem C119_keys_partial (U : Unicode) (hU : U.Lawful) (now : Nat → Int) (start n e : Int) (expire : Option (Outcome Int))
    (he : expire = none ∨ expire = some (.ok e)) (keepers : List Runes) (inst : Inst) (hg : inst.groupSize ≠ 0) :
    (n ≤ (FreeIds U inst.groupSize (inst.keys.map (fun k => k.id.val))).ncard →
      Ends (fun t => generateKeys U now start n expire keepers inst t ≠ none)) ∧
    ((FreeIds U inst.groupSize (inst.keys.map (fun k => k.id.val))).ncard < n →
      ∀ t, generateKeys U now start n expire keepers inst t = none) := by
  obtain ⟨x, hx⟩ : ∃ x, ∀ t, generateKeys U now start n expire keepers inst t =
      (generateLoop U now x keepers n.toNat inst t).map (fun p => (.ok (), p.1, p.2)) := by
    rcases he with rfl | rfl
    · exact ⟨start + 365 * 24 * 3600 * 1000000000, fun t => rfl⟩
    · exact ⟨e, fun t => rfl⟩
  have hiff : ∀ t, generateKeys U now start n expire keepers inst t = none ↔
      keysP U inst.groupSize (newKeyLength inst.keyLength inst.groupSize) n.toNat (inst.keys.map (fun k => k.id.val)) t = none := by
    intro t
    rw [hx, ← generateLoop_none_iff U now x keepers]
    simp
  constructor
  · intro h
    have hs := (Settles.keys hU hg (newKeyLength inst.keyLength inst.groupSize) n.toNat _ (by omega)).ends
      (Fair.keys U hg (newKeyLength inst.keyLength inst.groupSize) n.toNat (inst.keys.map (fun k => k.id.val))).loc
    simpa only [ne_eq, hiff] using hs
  · intro h t
    rw [hiff]
    exact keysP_stuck hU _ _ _ (by omega) t

/-- If the keys there are and those asked for are together no more than the ids, `26^GroupSize`, `GenerateKeys` ends with probability
one.  With the group size 5 of the program this means 11881376 keys. -/
theorem C119_partial (U : Unicode) (hU : U.Lawful) (now : Nat → Int) (start n e : Int) (expire : Option (Outcome Int))
    (he : expire = none ∨ expire = some (.ok e)) (keepers : List Runes) (inst : Inst) (hg : inst.groupSize ≠ 0)
    (hroom : (inst.keys.length : Int) + n ≤ 26 ^ inst.groupSize) :
    Ends (fun t => generateKeys U now start n expire keepers inst t ≠ none) := by
  refine (C119_keys_partial U hU now start n e expire he keepers inst hg).1 ?_
  have h := freeIds_card_ge hU inst.groupSize (inst.keys.map (fun k => k.id.val))
  rw [List.length_map] at h
  have h2 : (26 : Int) ^ inst.groupSize = ((26 ^ inst.groupSize : Nat) : Int) := by push_cast; rfl
  omega

/-- settings `Assert` accepts, with group size 1 and no keys -/
def exOneLetter : Krypto :=
  ⟨[107], none, none, false, false, false, ⟨1, 350, 85, 85, [], [], lit "SA6MWA", 100⟩, [], []⟩

/-- C119 does not hold: with group size 1 the twenty-seventh key is never finished. -/
theorem C119_violated : ¬ C119 unicode15 := by
  intro h
  have h1 := h exOneLetter (by decide) (fun _ => 0) 0 27 none []
  refine not_ends_of_stuck ?_ h1
  intro t hn
  apply hn
  refine (C119_keys_partial unicode15 unicode15_lawful (fun _ => 0) 0 27 0 none (.inl rfl) [] exOneLetter.inst (by decide)).2 ?_ t
  have hle : (FreeIds unicode15 1 []).ncard ≤ 26 := by
    have e : {w : Runes | LetterString 1 w}.ncard = 26 := letterStrings_card 1
    rw [← e]
    refine Set.ncard_le_ncard (fun w hw => hw.1) ?_
    apply Set.finite_of_ncard_pos
    rw [e]; decide
  have e2 : (FreeIds unicode15 exOneLetter.inst.groupSize (exOneLetter.inst.keys.map (fun k => k.id.val))) = FreeIds unicode15 1 [] := rfl
  rw [e2]
  omega

/-- `NewUniqueMessageId`, exactly: it ends with probability one if some id of four letters and digits is not in use; otherwise it
never returns. -/
theorem C119_message_ids (msgs : List Msg) :
    ((∃ id, AlnumString 4 id ∧ id ∉ msgs.map Msg.id) → Ends (fun t => newUniqueMessageId msgs t ≠ none)) ∧
    ((∀ id, AlnumString 4 id → id ∈ msgs.map Msg.id) → ∀ t, newUniqueMessageId msgs t = none) :=
  ⟨fun ⟨_, h1, h2⟩ => (Settles.messageId h1 h2).ends (Fair.messageId msgs).loc, fun h t => messageId_stuck h t⟩

/-- Reading a radiogram ends with probability one, whatever it says, if there are fewer than `62^4 = 14776336` messages. -/
theorem C119_radiograms (U : Unicode) (E : RadioEnv) (msgs : List Msg) (radiogram : Runes) (h : msgs.length < 62 ^ 4) :
    Ends (fun t => parseRadiogram U E msgs radiogram t ≠ none) := by
  have hfree : ∃ id, AlnumString 4 id ∧ id ∉ msgs.map Msg.id := by
    exact free_alnum 4 (msgs.map Msg.id) (by rw [List.length_map]; exact h)
  have hs := (C119_message_ids msgs).1 hfree
  have e : ∀ t, parseRadiogram U E msgs radiogram t = none ↔ newUniqueMessageId msgs t = none := by
    intro t
    unfold parseRadiogram
    rcases newUniqueMessageId msgs t with _ | ⟨id, t1⟩
    · simp
    · simp only [reduceCtorEq, iff_false]
      split
      · simp
      · split <;> simp
  simpa only [ne_eq, e] using hs

/-- non-vacuity: `Ends` says something (a process that never returns does not end); the store without keys has room for two; there are
free message ids; and so reading a radiogram ends -/
example : ¬ Ends (fun _ => False) ∧ ((exEmpty.keys.length : Int) + 2 ≤ 26 ^ exEmpty.groupSize) ∧
    (∃ id, AlnumString 4 id ∧ id ∉ ([] : List Msg).map Msg.id) ∧ ([] : List Msg).length < 62 ^ 4 := by
  refine ⟨not_ends_of_stuck (fun _ h => h), by decide, ⟨lit "Ab12", ⟨by decide, ?_⟩, by simp⟩, by decide⟩
  unfold IsAlnum
  decide

end K431
