import Verif.InitLemmas
import Verif.CmdEx

/-!
# Properties of the command `initialize`: C58
-/

namespace K431
open Spec

/-- The statement of C58: whoever loads a file written by `initialize` gets a call-sign of at least two characters and settings that pass `Assert`. -/
def C58_Statement : Prop :=
  ∀ (C : Codec) (E : PwEnv) (U : Unicode) (V : InitEnv) (o : InitCmd) (disk : Disk) (r : Course), C.Lawful → U.Lawful → initCommand C E U V o disk = some r →
    ∀ t ∈ r.state.touched, t.contents ≠ [] →
    ∀ (E' : PwEnv) (W' : World) (k k' : Krypto), Blank k → Reads W' k t.path → load C E' W' r.state.disk k = some (.ok (), k') →
      2 ≤ k'.inst.callSign.length ∧ SettingsOk k'.inst

/-- **C58, partial**: settings always pass `Assert`, there are no messages, and the call-sign is the given one, trimmed and in capitals, if that has at least two characters; the call-sign is
missing otherwise.  The settings are those of the options, and there are as many keys as asked for with `--keys`. -/
theorem C58_partial {C : Codec} (hC : C.Lawful) {E : PwEnv} {U : Unicode} (hU : U.Lawful) {V : InitEnv} {o : InitCmd} {disk : Disk} {r : Course}
    (h : initCommand C E U V o disk = some r) {t : Touch} (ht : t ∈ r.state.touched) (hc : t.contents ≠ [])
    {E' : PwEnv} {W' : World} {k k' : Krypto} (hb : Blank k) (hr : Reads W' k t.path) (hl : load C E' W' r.state.disk k = some (.ok (), k')) :
    SettingsOk k'.inst ∧ k'.inst.messages = [] ∧
    (2 ≤ (trimSpace U (givenCall V o)).length → k'.inst.callSign = (trimSpace U (givenCall V o)).map U.toUpper) ∧
    ((trimSpace U (givenCall V o)).length < 2 → k'.inst.callSign = []) ∧
    (∀ n : Nat, o.keys = some n → k'.inst.keys.length = n) ∧
    (k'.inst.columns : Int) = o.columns ∧ (k'.inst.keyColumns : Int) = o.keyColumns ∧
    (∀ n, o.keyLength = some n → (k'.inst.keyLength : Int) = n) ∧ (∀ n, o.groupSize = some n → (k'.inst.groupSize : Int) = n) := by
  have key : ∀ {keys : Int} {expire : Runes} {keepers : List Runes} {keyLength groupSize : Int},
      initStore C E U V o.access o.file (o.yes.getD false) (toUpperStr U (trimSpace U (givenCall V o))) keys expire keepers keyLength groupSize o.keyColumns o.columns disk = some r →
      SettingsOk k'.inst ∧ k'.inst.messages = [] ∧
      (2 ≤ (trimSpace U (givenCall V o)).length → k'.inst.callSign = (trimSpace U (givenCall V o)).map U.toUpper) ∧
      ((trimSpace U (givenCall V o)).length < 2 → k'.inst.callSign = []) ∧ k'.inst.keys.length = keys.toNat ∧
      (k'.inst.columns : Int) = o.columns ∧ (k'.inst.keyColumns : Int) = o.keyColumns ∧
      (k'.inst.keyLength : Int) = keyLength ∧ (k'.inst.groupSize : Int) = groupSize := by
    intro keys expire keepers keyLength groupSize h
    rcases initStore_cases hC hU h with e | ⟨t', i, e, s1, s2, s3, s4, q1, q2, q3, q4, s5, s6, s7, e2⟩
    · rw [e] at ht; simp at ht
    · rw [e, List.mem_singleton] at ht
      subst ht
      have hs := e2 hc E' W' k k' hb hr hl
      refine ⟨⟨by rw [hs.groupSize]; exact s1, by rw [hs.keyLength]; exact s2, by rw [hs.columns]; exact s3, by rw [hs.groupSize, hs.keyColumns]; exact s4⟩, ?_, ?_, ?_, ?_,
        by rw [hs.columns]; exact q3, by rw [hs.keyColumns]; exact q4, by rw [hs.keyLength]; exact q2, by rw [hs.groupSize]; exact q1⟩
      · have := hs.messages; rw [s7, List.forall₂_nil_right_iff] at this; exact this
      · intro h2; rw [hs.callSign, s5, if_neg (by omega)]; rfl
      · intro h2; rw [hs.callSign, s5, if_pos h2]
      · rw [hs.keys.length_eq, s6]
  have stop : ∀ (x : Outcome Unit) (kk : Krypto), r = .stop x ⟨disk, kk, [], []⟩ → False := by
    intro x kk e; rw [e] at ht; simp [Course.state] at ht
  unfold initCommand at h
  dsimp only at h
  cases hcall : o.call with
  | none =>
    rw [hcall] at h
    dsimp only at h
    split at h
    · simp only [Option.some.injEq] at h; exact (stop _ _ h.symm).elim
    · rename_i call hca
      split at hca
      · simp at hca
      · split at hca
        · simp at hca
        · simp only [Option.some.injEq] at hca
          subst hca
          rw [show V.call = givenCall V o by simp [givenCall, hcall]] at h
          split at h
          · rename_i hint
            split at h
            · simp only [Option.some.injEq] at h; exact (stop _ _ h.symm).elim
            · obtain ⟨a, b, c, d, -, e1, e2, -, -⟩ := key h
              refine ⟨a, b, c, d, ?_, e1, e2, ?_, ?_⟩ <;>
              · intro n hn
                rw [hn] at hint
                simp at hint
          · obtain ⟨a, b, c, d, e, e1, e2, e3, e4⟩ := key h
            refine ⟨a, b, c, d, ?_, e1, e2, ?_, ?_⟩
            · intro n hn
              rw [e, hn]; simp
            · intro n hn
              rw [e3, hn]; rfl
            · intro n hn
              rw [e4, hn]; rfl
  | some c =>
    rw [hcall] at h
    dsimp only at h
    rw [show c = givenCall V o by simp [givenCall, hcall]] at h
    rw [if_neg (by simp)] at h
    obtain ⟨a, b, c, d, e, e1, e2, e3, e4⟩ := key h
    refine ⟨a, b, c, d, ?_, e1, e2, ?_, ?_⟩
    · intro n hn
      rw [e, hn]; simp
    · intro n hn
      rw [e3, hn]; rfl
    · intro n hn
      rw [e4, hn]; rfl

/-- The settings of a new instance pass `Assert`, and the options of `New` that set them do what they say and touch no other setting. -/
theorem C58_new (opts : List (Krypto → Krypto)) (k : Krypto) (hk : k = new opts) (n : Nat) :
    assertSettings (new []) = .ok () ∧ SettingsOk (new []).inst ∧
    (new (opts ++ [withGroupSize n])).inst = { k.inst with groupSize := n } ∧
    (new (opts ++ [withKeyLength n])).inst = { k.inst with keyLength := n } ∧
    (new (opts ++ [withColumns n])).inst = { k.inst with columns := n } ∧
    (new (opts ++ [withKeyColumns n])).inst = { k.inst with keyColumns := n } := by
  subst hk
  simp only [new, List.foldl_append, List.foldl_cons, List.foldl_nil]
  exact ⟨rfl, ⟨by decide, by decide, by decide, by decide⟩, rfl, rfl, rfl, rfl⟩

/-- nothing fails, nobody answers -/
def exInitEnv : InitEnv := ⟨exWorld, [], none, fun _ => .err .other, fun _ => 0, 0, []⟩

/-- `initialize --yes --call …` -/
def exInit (call : String) : InitCmd := { access := exAccess, file := [1], yes := some true, call := some (lit call) }

/-- the instance it makes -/
def exInitBase (call : String) : Krypto :=
  new [withPersistence [1], withInteractive true, withKeyLength 350, withGroupSize 5, withKeyColumns 30, withColumns 110,
    withCallSign unicode15 (toUpperStr unicode15 (trimSpace unicode15 (lit call))), withOverwrite true]

theorem exInitBase_inst (call : String) : ∃ c, (exInitBase call).inst = ⟨5, 350, 110, 30, [], [], c, 1⟩ := by
  unfold exInitBase
  simp only [new, List.foldl_cons, List.foldl_nil, withOverwrite, withCallSign]
  rw [setCallSign_given unicode15_lawful _ _ rfl]
  exact ⟨_, rfl⟩

theorem exInitBase_frame (call : String) : (exInitBase call).persistence = [1] ∧ (exInitBase call).overwrite = true := by
  unfold exInitBase
  simp only [new, List.foldl_cons, List.foldl_nil, withOverwrite, withCallSign]
  rw [setCallSign_given unicode15_lawful _ _ rfl]
  exact ⟨rfl, trivial⟩

theorem exInit_prepared (E : PwEnv) (call : String) : setSaltAndPFK E exAccess (exInitBase call) = (.ok (), { exInitBase call with pfk := some exPFK }) := by
  have h1 : hexDecode (hexEncode exPFK) = some exPFK := by decide
  have h2 : exPFK.length = 32 := by decide
  unfold setSaltAndPFK exAccess setPFKFromString
  simp only [Option.isSome_none, Bool.and_false, Bool.false_eq_true, if_false, h1, h2, ne_eq, not_true]

theorem assert_example {k : Krypto} {c : Runes} (hp : k.persistence = [1]) (hi : k.inst = ⟨5, 350, 110, 30, [], [], c, 1⟩) :
    assertSettings { k with pfk := some exPFK } = .ok () := by
  unfold assertSettings
  dsimp only
  rw [hp, hi]
  simp

theorem initCommand_example (C : Codec) (E : PwEnv) (call : String) : initCommand C E unicode15 exInitEnv (exInit call) exDisk =
    saveStep C E exWorld ⟨exDisk, { exInitBase call with pfk := some exPFK }, [], []⟩ := by
  have e : initCommand C E unicode15 exInitEnv (exInit call) exDisk = initStore C E unicode15 exInitEnv exAccess [1] true (toUpperStr unicode15 (trimSpace unicode15 (lit call))) 0 [] [] 350 5 30 110 exDisk := rfl
  rw [e]
  unfold initStore
  have e2 : new [withPersistence [1], withInteractive true, withKeyLength (350 : Int).toNat, withGroupSize (5 : Int).toNat, withKeyColumns (30 : Int).toNat,
      withColumns (110 : Int).toNat, withCallSign unicode15 (toUpperStr unicode15 (trimSpace unicode15 (lit call))), withOverwrite true] = exInitBase call := rfl
  rw [e2, exInit_prepared]
  dsimp only
  rw [check_ok rfl, andThen_go]
  obtain ⟨c, hi⟩ := exInitBase_inst call
  rw [check_ok, andThen_go, if_neg (by decide)]
  · rw [show exInitEnv.saveW = exWorld from rfl]
  · exact assert_example (exInitBase_frame call).1 hi

/-- running it -/
theorem init_example {C : Codec} (hC : C.Lawful) (E : PwEnv) (call : String) : ∃ r t, initCommand C E unicode15 exInitEnv (exInit call) exDisk = some r ∧
    r.state.touched = [t] ∧ t.path = [1] ∧ t.contents ≠ [] ∧ Blank (prepared E exAccess [1]).2 ∧ Reads exWorld (prepared E exAccess [1]).2 t.path ∧
    ∃ k', load C E exWorld r.state.disk (prepared E exAccess [1]).2 = some (.ok (), k') := by
  rw [initCommand_example]
  obtain ⟨c, hi⟩ := exInitBase_inst call
  obtain ⟨f1, f2⟩ := exInitBase_frame call
  obtain ⟨s', hd, ⟨cs, hcs, ht⟩, -, -, -, hst⟩ := saveStep_done hC (E := E) (W := exWorld) (s := ⟨exDisk, { exInitBase call with pfk := some exPFK }, [], []⟩) (path := [1])
    (key := exPFK) ⟨by dsimp only; rw [f1]; simp, by dsimp only; rw [f1]; rfl, rfl, rfl⟩ rfl (by decide) f2 rfl
  have hb : Blank (prepared E exAccess [1]).2 := by
    rw [prepared_example]
    exact ⟨newBase_blank.keys, newBase_blank.messages, newBase_blank.callSign, newBase_blank.spareKeys, newBase_blank.spareMsgs⟩
  have hr : Reads exWorld (prepared E exAccess [1]).2 [1] := by
    rw [prepared_example]
    exact ⟨by simp, rfl, rfl, rfl⟩
  refine ⟨_, ⟨[1], cs⟩, hd, ht, rfl, hcs, hb, hr, ?_⟩
  obtain ⟨k', hl, -⟩ := hst (by dsimp only; rw [hi]; simp) (by dsimp only; rw [hi]; simp) (by dsimp only; rw [hi]; simp) (by dsimp only; rw [hi]; simp)
    E exWorld (prepared E exAccess [1]).2 hb hr (by rw [prepared_example]; exact Or.inl rfl)
  exact ⟨k', hl⟩

/-- non-vacuity of `C58_partial`: a file is written and can be loaded -/
example {C : Codec} (hC : C.Lawful) (E : PwEnv) : ∃ r t k', initCommand C E unicode15 exInitEnv (exInit " sa6mwa") exDisk = some r ∧ t ∈ r.state.touched ∧ t.contents ≠ [] ∧
    load C E exWorld r.state.disk (prepared E exAccess [1]).2 = some (.ok (), k') ∧ k'.inst.callSign = lit "SA6MWA" := by
  obtain ⟨r, t, h, ht, hp, hc, hb, hr, k', hl⟩ := init_example hC E " sa6mwa"
  obtain ⟨-, -, he, -⟩ := C58_partial hC unicode15_lawful h (by rw [ht]; simp) hc hb hr hl
  exact ⟨r, t, k', h, by rw [ht]; simp, hc, hl, (he (by decide)).trans (by decide)⟩

/-- **C58 is violated**: `initialize --call A --yes` saves a store without a call-sign. -/
theorem C58_violated : ¬ C58_Statement := by
  intro H
  obtain ⟨C, hC⟩ := exists_lawful
  let E : PwEnv := ⟨fun _ _ => [], fun _ => true⟩
  obtain ⟨r, t, h, ht, hp, hc, hb, hr, k', hl⟩ := init_example hC E "A"
  obtain ⟨h2, -⟩ := H C E unicode15 exInitEnv (exInit "A") exDisk r hC unicode15_lawful h t (by rw [ht]; simp) hc E exWorld _ k' hb hr hl
  obtain ⟨-, -, -, he, -⟩ := C58_partial hC unicode15_lawful h (by rw [ht]; simp) hc hb hr hl
  rw [he (by decide)] at h2
  simp at h2

end K431
