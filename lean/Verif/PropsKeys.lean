import Verif.ImpSpec
import Verif.LiveLemmas
import Verif.PropsCipher
import Verif.Messages
import Mathlib.Logic.Relation

/-!
# Properties of the key store: generating, deleting and importing keys (C23-C26, C29, C39)
-/

namespace K431
open Spec

/-! ## C23: key ids stay unique -/

/-- One operation on the key store. -/
inductive KeyStep (U : Unicode) : Inst → Inst → Prop
  | newKey {now expire : Int} {keepers : List Runes} {inst inst' : Inst} {t t' : Tape} {k : Key} :
      newKey U now expire keepers inst t = some (k, inst', t') → KeyStep U inst inst'
  | generate {now : Nat → Int} {start n : Int} {expire : Option (Outcome Int)} {keepers : List Runes} {inst inst' : Inst}
      {t t' : Tape} {o : Outcome Unit} :
      generateKeys U now start n expire keepers inst t = some (o, inst', t') → KeyStep U inst inst'
  | delete (noise : Nat → Noise) (ids : List Runes) (inst : Inst) : KeyStep U inst (deleteKey U noise inst ids).2
  | deleteByString (noise : Nat → Noise) (args : List Runes) (inst : Inst) :
      KeyStep U inst (deleteKeyByString U noise inst args).2
  | deleteBySummary (noise : Nat → Nat → Noise) (lines : List Runes) (inst : Inst) :
      KeyStep U inst (deleteKeysBySummary U noise inst lines).2
  | importKeys (noise : Nat → Noise) (o : ImportOpts) (filter : Key → Bool) (loaded : Outcome (List Key × Runes))
      (inst : Inst) : KeyStep U inst (importKeys U noise o filter loaded inst).2.2

/-- **C23.** Starting from a store whose key ids are pairwise different up to case (each id having its own array),
after any sequence of generating, deleting and importing keys -- whatever the random source delivers, whatever file
is imported, whatever the user answers -- the ids are still pairwise different up to case. -/
theorem C23_unique (U : Unicode) (inst inst' : Inst) (h0 : StoreOk U inst)
    (h : Relation.ReflTransGen (KeyStep U) inst inst') :
    DistinctNames U (inst'.keys.map (fun k => k.id.val)) := by
  suffices StoreOk U inst' from this.distinct
  induction h with
  | refl => exact h0
  | tail _ hstep ih =>
    cases hstep with
    | newKey hn => exact ih.newKey hn
    | @generate now start n expire keepers _ _ t t' o hg =>
      unfold generateKeys at hg
      split at hg
      · rcases hl : generateLoop U now _ keepers n.toNat _ t with _ | ⟨i1, t1⟩
        · rw [hl] at hg; cases hg
        · rw [hl] at hg
          simp only [Option.map_some, Option.some.injEq, Prod.mk.injEq] at hg
          rw [← hg.2.1]
          exact ih.generateLoop hl
      · simp only [Option.some.injEq, Prod.mk.injEq] at hg; rw [← hg.2.1]; exact ih
      · simp only [Option.some.injEq, Prod.mk.injEq] at hg; rw [← hg.2.1]; exact ih
    | delete noise ids => exact ih.delete
    | deleteByString noise args => exact ih.delete
    | deleteBySummary noise lines => exact ih.deleteBySummary
    | importKeys noise o filter loaded => exact ih.importKeys

/-- An empty store to begin with: group size 2, key length 3, call-sign SA6MWA. -/
def exEmpty : Inst := ⟨2, 3, 80, 80, [], [], lit "SA6MWA", 100⟩

/-- words giving these letters -/
def exTape (s : String) : Tape := (lit s).map (fun c => wordFor (c - 65).toNat)

/-- non-vacuity: the second key is first drawn with the id of the first, and draws again -/
example : StoreOk unicode15 exEmpty ∧
    (newKey unicode15 0 1 [lit "SM0AA, sa6mwa"] exEmpty (exTape "ABQWERABCDQWER")).map (fun p => p.2.1.keys.map (fun k => (k.id.val, k.runes, k.names))) =
      some [(lit "AB", lit "QWER", [lit "SM0AA"])] ∧
    ((newKey unicode15 0 1 [] exEmpty (exTape "ABQWERABCDZXCV")).bind (fun p => newKey unicode15 0 1 [] p.2.1 p.2.2)).map
      (fun p => p.2.1.keys.map (fun k => (k.id.val, k.runes))) = some [(lit "AB", lit "QWER"), (lit "CD", lit "ZXCV")] := by
  decide +kernel

/-! ## C24: shape of generated keys -/

/-- **C24**, one key: `NewKey` appends exactly one key of the right shape, created now, with an id not
in the store, and changes nothing else. -/
theorem C24_newKey (U : Unicode) (now expire : Int) (keepers : List Runes) (inst inst' : Inst) (t t' : Tape) (k : Key)
    (hg : inst.groupSize ≠ 0) (h : newKey U now expire keepers inst t = some (k, inst', t')) :
    (∃ nx, inst' = { inst with keys := inst.keys ++ [k], nextAddr := nx }) ∧ Fresh inst expire k ∧ k.created = now ∧
    ¬ InFold U k.id.val (inst.keys.map (fun k => k.id.val)) := by
  obtain ⟨h1, _, h3, h4, h5, h6, h7, h8, h9, h10, h11, h12, _⟩ := newKey_spec h
  exact ⟨⟨_, h1⟩, newKey_fresh hg h, h10, h5⟩

/-- **C24**, many keys: if `GenerateKeys(n)` returns without error, it appended exactly `n` keys of the right
shape (none for negative `n`), pairwise different and different from the existing ones, and changed nothing else; they expire when
asked, or in 365 days.  If it returns an error, nothing changed. -/
theorem C24_generate (U : Unicode) (now : Nat → Int) (start n : Int) (expire : Option (Outcome Int)) (keepers : List Runes)
    (inst inst' : Inst) (t t' : Tape) (o : Outcome Unit) (hg : inst.groupSize ≠ 0)
    (h : generateKeys U now start n expire keepers inst t = some (o, inst', t')) :
    (o = .ok () → ∃ new nx e, inst' = { inst with keys := inst.keys ++ new, nextAddr := nx } ∧
      new.length = n.toNat ∧ (expire = none → e = start + 365 * 86400 * 10 ^ 9) ∧ (∀ r, expire = some r → r = .ok e) ∧
      (∀ k ∈ new, Fresh inst e k) ∧
      (DistinctNames U (inst.keys.map (fun k => k.id.val)) → DistinctNames U ((inst.keys ++ new).map (fun k => k.id.val)))) ∧
    (o ≠ .ok () → inst' = inst) := by
  unfold generateKeys at h
  split at h
  · rename_i e he
    rcases hl : generateLoop U now e keepers n.toNat inst t with _ | ⟨i1, t1⟩
    · rw [hl] at h; cases h
    · rw [hl] at h
      simp only [Option.map_some, Option.some.injEq, Prod.mk.injEq] at h
      obtain ⟨rfl, rfl, rfl⟩ := h
      obtain ⟨new, nx, a, b, c, d⟩ := generateLoop_spec hg hl
      refine ⟨fun _ => ⟨new, nx, e, a, b, ?_, ?_, c, d⟩, fun h => absurd rfl h⟩
      · intro hn
        rw [hn] at he
        simp only [Outcome.ok.injEq] at he
        omega
      · intro r hr
        rw [hr] at he
        exact he
  · simp only [Option.some.injEq, Prod.mk.injEq] at h
    obtain ⟨h1, h2, _⟩ := h
    exact ⟨fun h => (by rw [← h1] at h; cases h), fun _ => h2.symm⟩
  · simp only [Option.some.injEq, Prod.mk.injEq] at h
    obtain ⟨h1, h2, _⟩ := h
    exact ⟨fun h => (by rw [← h1] at h; cases h), fun _ => h2.symm⟩

/-- non-vacuity -/
example : (generateKeys unicode15 (fun _ => 7) 0 2 none [] exEmpty (exTape "ABQWERCDZXCV")).map (fun p => (p.1, p.2.1.keys.map (fun k => (k.id.val, k.runes, k.expires)))) =
    some (.ok (), [(lit "AB", lit "QWER", 31536000000000000), (lit "CD", lit "ZXCV", 31536000000000000)]) ∧
    (generateKeys unicode15 (fun _ => 7) 0 2 (some (.err .other)) [] exEmpty []).map (fun p => p.1) = some (.err .other) := by
  decide +kernel

/-- **C24**, termination: as long as the store has fewer keys than there are ids, whatever the random source has delivered so
far, there is a continuation with which `NewKey` returns (so with fresh random words it returns with probability one);
if every id is taken it never returns. -/
theorem C24_returns (U : Unicode) (hU : U.Lawful) (now expire : Int) (keepers : List Runes) (inst : Inst)
    (hg : inst.groupSize ≠ 0) :
    (inst.keys.length < 26 ^ inst.groupSize → ∀ t : Tape, ∃ s, newKey U now expire keepers inst (t ++ s) ≠ none) ∧
    ((∀ id : Runes, id.length = inst.groupSize → (∀ c ∈ id, IsLetter c) → InFold U id (inst.keys.map (fun k => k.id.val))) →
      ∀ t : Tape, newKey U now expire keepers inst t = none) := by
  constructor
  · intro hlt t
    obtain ⟨w, hw, hw', hf⟩ := free_id U hU inst.keys inst.groupSize hlt
    obtain ⟨s, id, t1, h1⟩ := newIdLoop_complete (U := U) (keys := inst.keys) hg w hw hw'
      (fun h => hf ((containsKeyId_iff U _ _).1 h)) t.length t (Nat.le_refl _)
    -- enough fuel after some more words
    have h2 := newIdLoop_append (s := [wordFor 0]) (fuel' := (t ++ s ++ [wordFor 0]).length + 1) h1 (by simp)
    -- the key letters
    rcases hk : intns 26 (newKeyLength inst.keyLength inst.groupSize) (t1 ++ [wordFor 0]) with _ | ⟨xs, t2⟩
    · obtain ⟨s', xs, hs'⟩ := intns26_complete _ _ hk
      refine ⟨s ++ [wordFor 0] ++ s', ?_⟩
      have h3 := newIdLoop_append (s := s') (fuel' := (t ++ (s ++ [wordFor 0] ++ s')).length + 1) h2 (by simp)
      unfold newKey
      simp only
      rw [show t ++ (s ++ [wordFor 0] ++ s') = t ++ s ++ [wordFor 0] ++ s' by simp] at h3 ⊢
      rw [h3]
      simp only
      rw [hs']
      simp
    · refine ⟨s ++ [wordFor 0], ?_⟩
      unfold newKey
      simp only
      rw [show t ++ (s ++ [wordFor 0]) = t ++ s ++ [wordFor 0] by simp, h2]
      simp only
      rw [hk]
      simp
  · intro hall t
    rcases h : newKey U now expire keepers inst t with _ | ⟨k, inst', t'⟩
    · rfl
    · obtain ⟨_, _, h3, h4, h5, _⟩ := newKey_spec h
      exact absurd (hall _ h3 h4) h5

/-- non-vacuity: the empty store has room -/
example : exEmpty.groupSize ≠ 0 ∧ exEmpty.keys.length < 26 ^ exEmpty.groupSize ∧
    newKey unicode15 0 0 [] exEmpty (exTape "ABQWE") = none ∧ newKey unicode15 0 0 [] exEmpty (exTape "ABQWER") ≠ none := by
  decide +kernel

/-! ## C25: own call-sign among the keepers -/

/-- **C25**, full statement: the own call-sign is, in no case variant, a keeper of a new key. -/
def C25_Statement : Prop :=
  ∀ (U : Unicode), U.Lawful → ∀ (now expire : Int) (keepers : List Runes) (inst inst' : Inst) (t t' : Tape) (k : Key),
    newKey U now expire keepers inst t = some (k, inst', t') → ¬ InFold U inst.callSign k.names

/-- The statement is false: given twice, the own call-sign is removed once. -/
theorem C25_violated : ¬ C25_Statement := by
  intro h
  have := h unicode15 unicode15_lawful 0 0 [lit "SA6MWA", lit "SA6MWA"] exEmpty _ (exTape "ABQWER") _ _
    (show newKey unicode15 0 0 [lit "SA6MWA", lit "SA6MWA"] exEmpty (exTape "ABQWER") =
      some ((newKey unicode15 0 0 [lit "SA6MWA", lit "SA6MWA"] exEmpty (exTape "ABQWER")).get (by decide +kernel)) from by simp)
  revert this
  decide +kernel

/-- **C25**, what holds: of the call-signs given, exactly the first one equal to the own call-sign up to case is dropped and all
others are kept; so the own call-sign is not a keeper unless it is given twice.  Missing: repeated own call-sign. -/
theorem C25_partial (U : Unicode) (now expire : Int) (keepers : List Runes) (inst inst' : Inst) (t t' : Tape) (k : Key)
    (h : newKey U now expire keepers inst t = some (k, inst', t')) :
    k.names.Perm ((vettedKeepers U keepers).eraseP (fun n => decide (SameFold U inst.callSign n))) ∧
    (∀ n ∈ vettedKeepers U keepers, ¬ SameFold U inst.callSign n → n ∈ k.names) ∧
    (((vettedKeepers U keepers).filter (fun n => decide (SameFold U inst.callSign n))).length ≤ 1 →
      ¬ InFold U inst.callSign k.names) := by
  obtain ⟨_, _, _, _, _, _, _, _, _, _, _, _, hk, _⟩ := newKey_spec h
  have hp : k.names.Perm ((vettedKeepers U keepers).eraseP (fun n => decide (SameFold U inst.callSign n))) := by
    unfold Key.names
    rw [hk]
    have := removeOne_names (U := U) inst.callSign (allocSls (inst.nextAddr + 1) (vettedKeepers U keepers))
    rwa [allocSls_names] at this
  refine ⟨hp, ?_, ?_⟩
  · intro n hn hs
    rw [hp.mem_iff, List.mem_eraseP_of_neg (by simpa using hs)]
    exact hn
  · rintro hle ⟨n, hn, hs⟩
    rw [hp.mem_iff] at hn
    have h1 : n ∈ ((vettedKeepers U keepers).eraseP (fun n => decide (SameFold U inst.callSign n))).filter
        (fun n => decide (SameFold U inst.callSign n)) := List.mem_filter.2 ⟨hn, decide_eq_true hs⟩
    have hmem : ∃ a ∈ vettedKeepers U keepers, decide (SameFold U inst.callSign a) = true :=
      ⟨n, List.mem_of_mem_eraseP hn, decide_eq_true hs⟩
    obtain ⟨a, l1, l2, hl1, ha, e1, e2⟩ := List.exists_of_eraseP (p := fun n => decide (SameFold U inst.callSign n))
      hmem.choose_spec.1 hmem.choose_spec.2
    rw [e2] at h1
    rw [e1] at hle
    simp only [List.filter_append, List.length_append] at hle h1
    rw [List.filter_cons_of_pos (by simpa using ha)] at hle
    rw [List.mem_append] at h1
    rcases h1 with h1 | h1 <;> have := List.length_pos_of_mem h1 <;> simp only [List.length_cons] at hle <;> omega

/-- non-vacuity: given once, in small letters, it is dropped -/
example : (newKey unicode15 0 0 [lit "SM0AA,sa6mwa", lit "SK7XY"] exEmpty (exTape "ABQWER")).map (fun p => p.1.names) =
    some [lit "SM0AA", lit "SK7XY"] := by decide +kernel

/-! ## C26: DeleteKey -/

/-- **C26**, full statement: with pairwise different ids, `DeleteKey` removes exactly the keys whose id matches, up to case, one of the given
ids, returns their number, and leaves the other keys unchanged (in some order). -/
def C26_Statement : Prop :=
  ∀ (U : Unicode), U.Lawful → ∀ (noise : Nat → Noise) (inst : Inst) (ids : List Runes), StoreOk U inst →
    (deleteKey U noise inst ids).2.keys.Perm (inst.keys.filter (fun k => !decide (InFold U k.id.val ids))) ∧
    (deleteKey U noise inst ids).1 = (inst.keys.filter (fun k => decide (InFold U k.id.val ids))).length

/-- zeros for wiped arrays -/
def noNoise : Noise := ⟨fun _ _ => 0, fun _ _ => 0⟩

/-- a file with two keys from SM0AA, kept by us -/
def exFile : Outcome (List Key × Runes) :=
  .ok ([⟨⟨1, lit "AB"⟩, lit "QWER", [⟨2, lit "SA6MWA"⟩], 0, 9, false, false, []⟩,
    ⟨⟨3, lit "CD"⟩, lit "ZXCV", [⟨4, lit "SA6MWA"⟩], 0, 9, false, false, []⟩], lit "SM0AA")

/-- the store after importing them -/
def exImported : Inst := (importKeys unicode15 (fun _ => noNoise) ⟨false, false, fun _ => none⟩ (fun _ => true) exFile exEmpty).2.2

/-- The statement is false: imported keys share the array of the exporter's call-sign, so deleting one of them overwrites the
keepers of the other (here with zeros). -/
theorem C26_violated : ¬ C26_Statement := by
  intro h
  have := (h unicode15 unicode15_lawful (fun _ => noNoise) exImported [lit "AB"] (by decide +kernel)).1.length_eq
  have hm := (h unicode15 unicode15_lawful (fun _ => noNoise) exImported [lit "AB"] (by decide +kernel)).1.mem_iff
    (a := (exImported.keys.filter (fun k => decide (k.id.val = lit "CD"))).head (by decide +kernel))
  revert hm
  decide +kernel

/-- what is left: nobody keeps the second key any more -/
example : exImported.keys.map (fun k => (k.id.val, k.names)) = [(lit "AB", [lit "SM0AA"]), (lit "CD", [lit "SM0AA"])] ∧
    (deleteKey unicode15 (fun _ => noNoise) exImported [lit "ab"]).2.keys.map (fun k => (k.id.val, k.names)) =
      [(lit "CD", [[0, 0, 0, 0, 0]])] := by decide +kernel

/-- **C26**, what holds: exactly the matching keys are removed and counted; each of the other keys is unchanged except
that the contents of keepers' arrays it shares with a deleted key may be overwritten -- so all of them are
unchanged if there is no such sharing; settings do not change, and stored messages only if they share
the array of a deleted key's id.  Missing: keys sharing keepers' arrays. -/
theorem C26_partial (U : Unicode) (noise : Nat → Noise) (inst : Inst) (ids : List Runes) (h : StoreOk U inst) :
    (∃ f : Key → Key, (deleteKey U noise inst ids).2.keys.Perm
        ((inst.keys.filter (fun k => !decide (InFold U k.id.val ids))).map f) ∧
      ∀ x, KeepersOnly x (f x) ∧ ((∀ k ∈ inst.keys, InFold U k.id.val ids → ¬ ShareKeeper k x) → f x = x)) ∧
    ((∀ k ∈ inst.keys, ∀ x ∈ inst.keys, InFold U k.id.val ids → ¬ InFold U x.id.val ids → ¬ ShareKeeper k x) →
      (deleteKey U noise inst ids).2.keys.Perm (inst.keys.filter (fun k => !decide (InFold U k.id.val ids)))) ∧
    (deleteKey U noise inst ids).1 = (inst.keys.filter (fun k => decide (InFold U k.id.val ids))).length ∧
    (∃ g : Sl → Sl, (∀ s, (∀ k ∈ inst.keys, InFold U k.id.val ids → k.id.addr ≠ s.addr) → g s = s) ∧
      (deleteKey U noise inst ids).2 = { inst with
        keys := (deleteKey U noise inst ids).2.keys
        messages := inst.messages.map (fun m => { m with keyId := g m.keyId }) }) := by
  obtain ⟨f, g, p, n, o, u, m, e⟩ := deleteKey_spec ids noise inst h.distinct h.arrays
  have hu : ∀ x : Key, (∀ k ∈ inst.keys, InFold U k.id.val ids → ¬ ShareKeeper k x) → f x = x := by
    intro x hx
    apply u
    intro k hk hi s hs t ht heq
    exact hx k hk hi ⟨s, hs, t, ht, heq⟩
  refine ⟨⟨f, p, fun x => ⟨o x, hu x⟩⟩, ?_, ?_, g, m, e⟩
  · intro hall
    have : (inst.keys.filter (fun k => !decide (InFold U k.id.val ids))).map f =
        inst.keys.filter (fun k => !decide (InFold U k.id.val ids)) := by
      have hc : ∀ x ∈ inst.keys.filter (fun k => !decide (InFold U k.id.val ids)), f x = x := by
        intro x hx
        obtain ⟨h1, h2⟩ := List.mem_filter.1 hx
        exact hu x (fun k hk hi => hall k hk x h1 hi (by simpa using h2))
      rw [List.map_congr_left hc, List.map_id']
    rwa [this] at p
  · have hl := p.length_eq
    rw [List.length_map] at hl
    have := List.length_eq_length_filter_add (l := inst.keys) (fun k => decide (InFold U k.id.val ids))
    omega

/-- non-vacuity: three keys without shared keepers, two deleted in one call, one id unknown -/
example : let inst := exInst [exKey 1 "A" "Q", exKey 2 "B" "W", exKey 3 "C" "E"]
    StoreOk unicode15 inst ∧ (∀ k ∈ inst.keys, ∀ x ∈ inst.keys, k ≠ x → ¬ ShareKeeper k x) ∧
    (deleteKey unicode15 (fun _ => noNoise) inst [lit "a", lit "X", lit "C"]).1 = 2 ∧
    (deleteKey unicode15 (fun _ => noNoise) inst [lit "a", lit "X", lit "C"]).2.keys = [exKey 2 "B" "W"] := by decide +kernel

/-! ## C29: keepers and recipients are case-insensitive sets -/

/-- **C29**, keepers: `ContainsKeeper` is true exactly if all the given call-signs are keepers up to case (without arguments: if there
are no keepers); `AddKeeper` keeps the list, appends only given call-signs, after it every given one is
a keeper, it adds nothing if all are keepers already, and never creates a repetition; on a list without repetitions `RemoveKeeper` removes
exactly the given ones. -/
theorem C29_keepers (U : Unicode) (keepers : List Sl) :
    (∀ args : List Runes, containsNames U (keepers.map Sl.val) args = true ↔
      (args = [] ∧ keepers = []) ∨ (args ≠ [] ∧ ∀ a ∈ args, InFold U a (keepers.map Sl.val))) ∧
    (∀ args : List Sl, ∃ new, addKeeper U keepers args = keepers ++ new ∧ new.Sublist args ∧
      (∀ a ∈ args, InFold U a.val ((addKeeper U keepers args).map Sl.val)) ∧
      ((∀ a ∈ args, InFold U a.val (keepers.map Sl.val)) → new = []) ∧
      (DistinctNames U (keepers.map Sl.val) → DistinctNames U ((addKeeper U keepers args).map Sl.val))) ∧
    (DistinctNames U (keepers.map Sl.val) → ∀ args : List Runes,
      (removeKeeper U keepers args).Perm (keepers.filter (fun s => !decide (InFold U s.val args)))) := by
  refine ⟨?_, ?_, fun h args => removeKeeper_spec U args keepers h⟩
  · intro args
    have hc := (C30_membership U).2.2.2.2.2.2.2.1 args (keepers.map Sl.val)
    unfold containsNames
    by_cases ha : args = []
    · subst ha; simp
    · have : args.length ≠ 0 := by simpa using ha
      rw [if_neg this]
      simp only [Bool.if_false_right, Bool.and_true, decide_eq_true_eq]
      rw [hc]
      simp only [ha, false_and, false_or, ne_eq, not_false_eq_true, true_and]
      constructor
      · intro h a haa; obtain ⟨b, hb, hs⟩ := h a haa; exact ⟨b, hb, SameFold.symm hs⟩
      · intro h a haa; obtain ⟨b, hb, hs⟩ := h a haa; exact ⟨b, hb, SameFold.symm hs⟩
  · intro args
    obtain ⟨new, e, a, b, c, _, d⟩ := addKeeper_spec U args keepers
    rw [e]
    exact ⟨new, rfl, a, b, d, c⟩

/-- **C29**, recipients: the same. -/
theorem C29_recipients (U : Unicode) (recipients : List Runes) :
    (∀ args : List Runes, ∃ new, addRecipient U recipients args = recipients ++ new ∧ new.Sublist args ∧
      (∀ a ∈ args, InFold U a (addRecipient U recipients args)) ∧
      ((∀ a ∈ args, InFold U a recipients) → new = []) ∧
      (DistinctNames U recipients → DistinctNames U (addRecipient U recipients args))) ∧
    (DistinctNames U recipients → ∀ args : List Runes,
      (removeRecipient U recipients args).Perm (recipients.filter (fun s => !decide (InFold U s args)))) := by
  have hk := C29_keepers U (allocSls 0 recipients)
  rw [allocSls_names] at hk
  refine ⟨?_, ?_⟩
  · intro args
    obtain ⟨new, e, a, b, c, d⟩ := hk.2.1 (allocSls 0 args)
    have hm := addRecipient_map U (allocSls 0 args) (allocSls 0 recipients)
    rw [allocSls_names, allocSls_names] at hm
    rw [hm] at b d
    have ha : ∀ x ∈ args, ∃ s ∈ allocSls 0 args, s.val = x := by
      intro x hx
      rw [← allocSls_names args 0] at hx
      obtain ⟨s, hs, he⟩ := List.mem_map.1 hx
      exact ⟨s, hs, he⟩
    refine ⟨new.map Sl.val, ?_, ?_, ?_, ?_, d⟩
    · rw [← hm, e, List.map_append, allocSls_names]
    · have := a.map Sl.val; rwa [allocSls_names] at this
    · intro x hx
      obtain ⟨s, hs, rfl⟩ := ha x hx
      exact b s hs
    · intro h
      rw [c (fun s hs => h _ (by rw [← allocSls_names args 0]; exact List.mem_map_of_mem hs))]; rfl
  · intro hd args
    have := (hk.2.2 hd args).map Sl.val
    rw [removeRecipient_map, allocSls_names] at this
    refine this.trans (List.Perm.of_eq ?_)
    conv => rhs; rw [← allocSls_names recipients 0]
    rw [List.filter_map]
    rfl

/-- non-vacuity -/
example : addRecipient unicode15 [lit "SA6MWA"] [lit "sa6mwa", lit "SM0AA"] = [lit "SA6MWA", lit "SM0AA"] ∧
    DistinctNames unicode15 [lit "A", lit "B", lit "C"] ∧ removeRecipient unicode15 [lit "A", lit "B", lit "C"] [lit "a"] = [lit "C", lit "B"] := by
  decide +kernel

/-! ## C39: ImportKeys -/

/-- **C39**, full statement, for a file whose ids are pairwise different and a user who answers every question: the import
succeeds; the accepted keys are those of our group size which pass the filter and are new or allowed to be replaced;
afterwards the store has exactly the old keys not replaced, unchanged, and a copy of each accepted key; the count is the number of accepted
keys; messages and settings are as before. -/
def C39_Statement : Prop :=
  ∀ (U : Unicode), U.Lawful → ∀ (noise : Nat → Noise) (o : ImportOpts) (filter : Key → Bool) (ks : List Key) (call : Runes) (inst : Inst),
    StoreOk U inst → (∀ x ∈ inst.keys, ∀ s ∈ x.keepers, s.addr < inst.nextAddr) →
    DistinctNames U (ks.map (fun k => k.id.val)) → (∀ k ∈ ks, o.answer k ≠ none) →
    let acc := ks.filter (fun k => decide (Accepts U o filter inst.groupSize (inst.keys.map (fun k => k.id.val)) k))
    ∃ new nx keys, importKeys U noise o filter (.ok (ks, call)) inst =
        (.ok (), acc.length, { inst with keys := keys, nextAddr := nx }) ∧
      keys.Perm (inst.keys.filter (fun x => !decide (InFold U x.id.val (acc.map (fun k => k.id.val)))) ++ new) ∧
      List.Forall₂ (Imported U inst.callSign call) acc new

/-- a store with a key AB and a message enciphered with it -/
def exStored : Inst := { exEmpty with
  keys := [⟨⟨1, lit "AB"⟩, lit "QWER", [], 0, 9, true, false, []⟩]
  messages := [{ exMsg "HEJ" with keyId := ⟨1, lit "AB"⟩ }] }

/-- The statement is false: replacing a key overwrites the key id of stored messages enciphered with it, since
they share the array. -/
theorem C39_violated : ¬ C39_Statement := by
  intro h
  obtain ⟨new, nx, keys, e, _⟩ := h unicode15 unicode15_lawful (fun _ => noNoise) ⟨true, false, fun _ => some false⟩ (fun _ => true)
    [⟨⟨7, lit "AB"⟩, lit "ZXCV", [], 0, 9, false, false, []⟩] (lit "SM0AA") exStored (by decide +kernel) (by decide +kernel) (by decide +kernel)
    (by intro k _; simp)
  have e2 := congrArg (fun r => r.2.2.messages.map (fun m => m.keyId.val)) e
  simp only at e2
  revert e2
  decide +kernel

/-- ... and the other keys imported earlier together with the replaced one lose their keeper. -/
theorem C39_violated_keepers :
    (importKeys unicode15 (fun _ => noNoise) ⟨true, false, fun _ => none⟩ (fun k => decide (k.id.val = lit "AB")) exFile exImported).2.2.keys.map
      (fun k => (k.id.val, k.names)) = [(lit "CD", [[0, 0, 0, 0, 0]]), (lit "AB", [lit "SM0AA"])] := by decide +kernel

/-- **C39**, what holds: everything in the full statement except that old keys sharing a keeper's array with a replaced key may
have its contents overwritten, and stored messages sharing the array of a replaced key's id likewise.  In particular if nothing is
replaced, old keys and messages are exactly as before.  Missing: those overwritten arrays, and files with repeated ids. -/
theorem C39_partial (U : Unicode) (noise : Nat → Noise) (o : ImportOpts) (filter : Key → Bool) (ks : List Key) (call : Runes)
    (inst : Inst) (hs : StoreOk U inst) (ha : ∀ x ∈ inst.keys, ∀ s ∈ x.keepers, s.addr < inst.nextAddr)
    (hd : DistinctNames U (ks.map (fun k => k.id.val))) (hans : ∀ k ∈ ks, o.answer k ≠ none) :
    let acc := ks.filter (fun k => decide (Accepts U o filter inst.groupSize (inst.keys.map (fun k => k.id.val)) k))
    let replaced := fun x : Key => InFold U x.id.val (acc.map (fun k => k.id.val))
    ∃ (f : Key → Key) (g : Sl → Sl) (new keys : List Key) (nx : Nat),
      importKeys U noise o filter (.ok (ks, call)) inst = (.ok (), acc.length, { inst with
        keys := keys, messages := inst.messages.map (fun m => { m with keyId := g m.keyId }), nextAddr := nx }) ∧
      keys.Perm ((inst.keys.filter (fun x => !decide (replaced x))).map f ++ new) ∧
      List.Forall₂ (Imported U inst.callSign call) acc new ∧
      (∀ x, KeepersOnly x (f x)) ∧
      (∀ x : Key, (∀ y ∈ inst.keys, replaced y → ¬ ShareKeeper y x) → f x = x) ∧
      (∀ s : Sl, (∀ y ∈ inst.keys, replaced y → y.id.addr ≠ s.addr) → g s = s) := by
  intro acc replaced
  obtain ⟨f, g, new, acc', nx, e1, e2, e3, e4, e5, e6, e7⟩ := importLoop_spec (U := U) (o := o) (filter := filter)
    (call := ⟨inst.nextAddr, call⟩) inst.nextAddr ks noise 0 { inst with nextAddr := inst.nextAddr + 1 } inst.keys []
    ⟨hs.distinct, hs.arrays, fun k hk => by have := hs.fresh k hk; simp only; omega⟩ (by simp) ha (by simp) (by simp) (by simp) (by simp) hd hans
  have hacc : acc' = acc := e1
  subst hacc
  refine ⟨f, g, new, (importLoop U noise o filter ⟨inst.nextAddr, call⟩ ks 0 { inst with nextAddr := inst.nextAddr + 1 }).2.2.keys,
    nx, ?_, ?_, e4, e5, e6, e7⟩
  · have hl := e4.length_eq
    unfold importKeys
    simp only
    rw [e2]
    simp [hl]
  · simpa using e3

/-- **C39**, protection: without permission to replace -- the option is off and the user, if asked, never agrees -- whatever the
file contains, the import only appends keys, the count is the number of keys added, and nothing else changes. -/
theorem C39_protects (U : Unicode) (noise : Nat → Noise) (o : ImportOpts) (filter : Key → Bool)
    (loaded : Outcome (List Key × Runes)) (inst : Inst)
    (ho : o.overwrite = false) (ha : o.canAsk = true → ∀ k, o.answer k ≠ some true) :
    ∃ new nx, (importKeys U noise o filter loaded inst).2 = (new.length, { inst with keys := inst.keys ++ new, nextAddr := nx }) := by
  unfold importKeys
  rcases loaded with ⟨ks, call⟩ | e | _
  · obtain ⟨new, nx, e⟩ := importLoop_protects (U := U) (filter := filter) (call := ⟨inst.nextAddr, call⟩) ho ha ks noise 0
      { inst with nextAddr := inst.nextAddr + 1 }
    refine ⟨new, nx, ?_⟩
    simp only
    rw [e]
    simp
  · exact ⟨[], inst.nextAddr, by simp⟩
  · exact ⟨[], inst.nextAddr, by simp⟩

/-- If the file can not be loaded, nothing changes and the error is returned. -/
theorem C39_loadFails (U : Unicode) (noise : Nat → Noise) (o : ImportOpts) (filter : Key → Bool) (e : Err) (inst : Inst) :
    importKeys U noise o filter (.err e) inst = (.err e, 0, inst) := rfl

/-- non-vacuity: two new keys; then again without permission: none -/
example : StoreOk unicode15 exEmpty ∧ (importKeys unicode15 (fun _ => noNoise) ⟨false, false, fun _ => some false⟩ (fun _ => true) exFile exEmpty).2.1 = 2 ∧
    (importKeys unicode15 (fun _ => noNoise) ⟨false, false, fun _ => some false⟩ (fun _ => true) exFile exImported).2 = (0, { exImported with nextAddr := exImported.nextAddr + 1 }) ∧
    (importKeys unicode15 (fun _ => noNoise) ⟨false, true, fun k => some (decide (k.id.val = lit "CD"))⟩ (fun _ => true) exFile exImported).2.1 = 1 := by
  decide +kernel

end K431
