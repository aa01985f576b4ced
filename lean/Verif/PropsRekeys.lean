import Verif.PropsRekey
import Verif.PropsTalk

/-!
# C138: changing the key of a file again and again
-/

namespace K431

/-- A run of `pfk --change` on the file `path`, which is opened with `key`; options and answers ask for the new key `key'`, the user agrees, and the file can be written completely. -/
structure ChangesKey (C : Codec) (path : List Nat) (disk : Disk) (key : List Nat) (r : Course) (key' : List Nat) (E : PwEnv) (V : PfkEnv) (o : PfkCmd) (file : List Nat) : Prop where
  runs : pfkCommand C E V o disk = some r
  noPFK : o.genPFK = false
  noSalt : o.genSalt = false
  change : o.change = some file
  access : (preparedOld E o.access o.old file).1 = .ok ()
  reads : Reads V.loadW (preparedOld E o.access o.old file).2 path
  opens : LoadsWith E V.loadW (preparedOld E o.access o.old file).2 key
  asks : ∀ k, load C E V.loadW disk (preparedOld E o.access o.old file).2 = some (.ok (), k) → ∃ salt', SaltAfter o.newSalt k.salt salt' ∧ NewKey E V o salt' key' ∧ Reads V.saveW k path
  size : key'.length = 32
  agreed : Agreed V o
  room : V.saveW.room = none

/-- Any number of such runs, one after the other, each opening the file with the key that the one before has set: from a disk and a key to a disk and a key, and the keys used before the last. -/
inductive KeyChanges (C : Codec) (path : List Nat) : Disk → List Nat → List (List Nat) → Disk → List Nat → Prop
  | none {d key} : KeyChanges C path d key [] d key
  | more {d key keys d' key' r key'' E V o file} : KeyChanges C path d key keys d' key' → ChangesKey C path d' key' r key'' E V o file →
      KeyChanges C path d key (keys ++ [key']) r.state.disk key''

/-- **C138**: however often the key of a file is changed, the file holds what it held at first; it opens with the last key, and with none of the earlier ones (unless it has been set again); no other file is changed. -/
theorem C138_changes {C : Codec} (hC : C.Lawful) {path : List Nat} {d d' : Disk} {key key' : List Nat} {keys : List (List Nat)} {i : Inst} (h : KeyChanges C path d key keys d' key')
    (hst : Stored C d path key i) (h0 : i.groupSize ≠ 0) (h1 : i.keyLength ≠ 0) (h2 : i.columns ≠ 0) (h3 : i.keyColumns ≠ 0) :
    Stored C d' path key' i ∧ (keys ≠ [] → OnlyOpens C d' path key') ∧ (∀ p, p ≠ path → d' p = d p) := by
  induction h with
  | none => exact ⟨hst, fun e => absurd rfl e, fun _ _ => rfl⟩
  | @more keys d1 key1 r key2 E V o file _ hs ih =>
    obtain ⟨hst1, -, hoth⟩ := ih
    have hb : Blank (preparedOld E o.access o.old file).2 := by
      obtain ⟨x, y, hf⟩ := preparedOld_frame E o.access o.old file
      rw [hf]
      exact ⟨newBase_blank.keys, newBase_blank.messages, newBase_blank.callSign, newBase_blank.spareKeys, newBase_blank.spareMsgs⟩
    obtain ⟨k, hl, hsame⟩ := hst1 E V.loadW _ hb hs.reads hs.opens
    obtain ⟨salt', g1, g2, g3⟩ := hs.asks k hl
    obtain ⟨-, c1, c2, c3, -⟩ := C67_rekey hC hs.runs hs.noPFK hs.noSalt hs.change hs.access hl g1 g2 hs.size hs.agreed g3 hs.room
      (by rw [hsame.groupSize]; exact h0) (by rw [hsame.keyLength]; exact h1) (by rw [hsame.columns]; exact h2) (by rw [hsame.keyColumns]; exact h3)
    exact ⟨c1.same hsame.symm, fun _ => c2, fun p hp => (c3 p hp).trans (hoth p hp)⟩

/-- `pfk --change … --pfk … --new-pfk … --yes` -/
def exRekey (key key' : List Nat) : PfkCmd := { access := { pfk := some (hexEncode key) }, change := some [1], newPFK := some (hexEncode key'), yes := true }

theorem preparedOld_exRekey (E : PwEnv) {key : List Nat} (hb : ∀ b ∈ key, b < 256) (hlen : key.length = 32) (key' : List Nat) : preparedOld E (exRekey key key').access (exRekey key key').old [1] =
    (.ok (), { newBase with persistence := [1], interactive := true, pfk := some key }) := by
  have h1 : hexDecode (hexEncode key) = some key := hexDecode_encode _ hb
  unfold preparedOld prepared setSaltAndPFK exRekey setPFKFromString
  simp only [Option.isSome_none, Bool.and_false, Bool.false_eq_true, if_false, h1, hlen, ne_eq, not_true]
  rfl

/-- the key of the example file can be changed to any other -/
theorem exRekey_runs {C : Codec} (hC : C.Lawful) (E : PwEnv) {disk : Disk} {key key' : List Nat} {i : Inst} (hst : Stored C disk [1] key i) (hb : ∀ b ∈ key, b < 256) (hlen : key.length = 32)
    (hb' : ∀ b ∈ key', b < 256) (hlen' : key'.length = 32) : ∃ r, ChangesKey C [1] disk key r key' E exPfkEnv (exRekey key key') [1] := by
  have hp := preparedOld_exRekey E hb hlen key'
  have hr : Reads exPfkEnv.loadW (preparedOld E (exRekey key key').access (exRekey key key').old [1]).2 [1] := by rw [hp]; exact ⟨by simp, rfl, rfl, rfl⟩
  have hk : LoadsWith E exPfkEnv.loadW (preparedOld E (exRekey key key').access (exRekey key key').old [1]).2 key := by rw [hp]; exact .inl rfl
  have hbl : Blank (preparedOld E (exRekey key key').access (exRekey key key').old [1]).2 := by
    rw [hp]; exact ⟨newBase_blank.keys, newBase_blank.messages, newBase_blank.callSign, newBase_blank.spareKeys, newBase_blank.spareMsgs⟩
  obtain ⟨k, hl, hs⟩ := hst E exPfkEnv.loadW _ hbl hr hk
  have hnew : ∀ salt, NewKey E exPfkEnv (exRekey key key') salt key' := fun salt => .given rfl rfl rfl (hexDecode_encode _ hb')
  have hop : Opened C disk k := by
    refine load_opened ⟨hbl.keys, hbl.messages, hbl.callSign, hbl.spareKeys, hbl.spareMsgs⟩ ?_ ?_ hl
    · rw [hp]; exact Nat.le_refl 1
    · rw [hp]
  have hpath : k.persistence = [1] := by
    obtain ⟨path, key1, c, w, g1, -, -, -, e, -⟩ := load_ok hl
    rw [hr.path, Option.some.injEq] at g1
    rw [e, g1]
    rfl
  have hw : Reads exPfkEnv.saveW k [1] := ⟨by simp [hpath], by rw [hpath]; rfl, rfl, rfl⟩
  obtain ⟨p, hq⟩ := changeFileKey_runs (C := C) (E := E) (V := exPfkEnv) (o := exRekey key key') (s := ⟨disk, k, [], []⟩) (salt' := k.salt) rfl (hnew _) hlen' (Or.inl rfl)
  obtain ⟨s', hd, -⟩ := saveStep_done hC (E := E) (W := exPfkEnv.saveW)
    (s := ⟨disk, { k with salt := k.salt, pfk := some key' }, [], p⟩) (path := [1]) (key := key') ⟨hw.named, hw.path, hw.stat, hw.opens⟩ rfl hlen' hop.overwrite rfl
  refine ⟨.go s', ?_, rfl, rfl, rfl, by rw [hp], hr, hk, ?_, hlen', Or.inl rfl, rfl⟩
  · unfold pfkCommand
    dsimp only
    rw [show (exRekey key key').genPFK = false from rfl, show (exRekey key key').genSalt = false from rfl, show (exRekey key key').change = some [1] from rfl]
    simp only [Bool.false_and, Bool.false_eq_true, if_false]
    rw [check_ok (by rw [hp]), andThen_go]
    unfold loadStep
    dsimp only
    rw [hl, Option.map_some, check_ok rfl, andThen_go, hq.1]
    exact hd
  · intro k' hk'
    rw [hl] at hk'
    simp only [Option.some.injEq, Prod.mk.injEq, true_and] at hk'
    subst hk'
    exact ⟨k.salt, rfl, hnew _, hw⟩

/-- non-vacuity: the key of the example file is changed, changed again and changed back -/
example {C : Codec} (hC : C.Lawful) (E : PwEnv) : ∃ d', KeyChanges C [1] (exStoreDisk C) exPFK [exPFK, exBytes, List.replicate 32 5] d' exPFK ∧ Stored C (exStoreDisk C) [1] exPFK exStore := by
  have hst : Stored C (exStoreDisk C) [1] exPFK exStore := stored_of_dec (by decide) (set_same _ _ _) (hC.right _ _ _ (by decide)) (by decide) (by decide) (by decide) (by decide)
  obtain ⟨r1, h1⟩ := exRekey_runs hC E (key' := exBytes) hst (by decide) (by decide) (by decide) (by decide)
  have c1 := KeyChanges.more .none h1
  obtain ⟨s1, -, -⟩ := C138_changes hC c1 hst (by decide) (by decide) (by decide) (by decide)
  obtain ⟨r2, h2⟩ := exRekey_runs hC E (key' := List.replicate 32 5) s1 (by decide) (by decide) (by decide) (by decide)
  have c2 := KeyChanges.more c1 h2
  obtain ⟨s2, -, -⟩ := C138_changes hC c2 hst (by decide) (by decide) (by decide) (by decide)
  obtain ⟨r3, h3⟩ := exRekey_runs hC E (key' := exPFK) s2 (by decide) (by decide) (by decide) (by decide)
  exact ⟨_, KeyChanges.more c2 h3, hst⟩

end K431
