import Verif.PfkCmdLemmas
import Verif.CmdEx

/-!
# Properties of the command `pfk`: C57, C67
-/

namespace K431

/-! ## C57: the key of a file is changed only with consent -/

/-- The statement of C57: if the command touches any file, then `--change` was given, the file was loaded with the old key, the user agreed, and the options do not
contradict each other. -/
def C57_Statement : Prop :=
  ∀ (C : Codec) (E : PwEnv) (V : PfkEnv) (o : PfkCmd) (disk : Disk) (r : Course), C.Lawful → pfkCommand C E V o disk = some r → ¬ r.Untouched disk →
    ∃ file, o.change = some file ∧ (preparedOld E o.access o.old file).1 = .ok () ∧
      (∃ k, load C E V.loadW disk (preparedOld E o.access o.old file).2 = some (.ok (), k)) ∧ Agreed V o ∧ ¬ o.Contradictory

/-- **C57, partial**: all of it but for one combination of contradictory options: `--random` together with `--new-pfk` is not rejected.  Besides, no other file than
the one loaded is changed, nor is there more than one attempt to write it. -/
theorem C57_partial {C : Codec} {E : PwEnv} {V : PfkEnv} {o : PfkCmd} {disk : Disk} {r : Course} (h : pfkCommand C E V o disk = some r) (ht : ¬ r.Untouched disk) :
    ∃ file, o.change = some file ∧ (preparedOld E o.access o.old file).1 = .ok () ∧
      (∃ k, load C E V.loadW disk (preparedOld E o.access o.old file).2 = some (.ok (), k) ∧
        ∃ t path, r.state.touched = [t] ∧ t.path = path ∧ resolvePath V.saveW k.persistence = some path ∧ ∀ p, p ≠ path → r.state.disk p = disk p) ∧
      Agreed V o ∧ (¬ o.Contradictory ∨ (o.random = true ∧ o.newPFK.isSome)) := by
  unfold pfkCommand at h
  dsimp only at h
  have untouched : r.state.touched = [] ∧ r.state.disk = disk → False := by
    rintro ⟨a, b⟩
    exact ht ⟨b, by rw [a]; simp⟩
  split at h
  · simp only [Option.some.injEq] at h; subst h; exact (untouched ⟨rfl, rfl⟩).elim
  rename_i hgg
  split at h
  · exact (untouched (generatePFK_touched h)).elim
  split at h
  · split at h <;> simp only [Option.some.injEq] at h <;> subst h <;> exact (untouched ⟨rfl, rfl⟩).elim
  cases hc : o.change with
  | none =>
    rw [hc] at h
    simp only [Option.some.injEq] at h; subst h; exact (untouched ⟨rfl, rfl⟩).elim
  | some file =>
    rw [hc] at h
    dsimp only at h
    by_cases hp : (preparedOld E o.access o.old file).1 = .ok ()
    swap
    · rw [check_stop hp] at h
      simp only [andThen_stop, Option.some.injEq] at h
      subst h; exact (untouched ⟨rfl, rfl⟩).elim
    rw [check_ok hp, andThen_go] at h
    unfold loadStep at h
    dsimp only at h
    rcases hl : load C E V.loadW disk (preparedOld E o.access o.old file).2 with _ | ⟨q, k⟩
    · rw [hl] at h; simp [andThen] at h
    rw [hl, Option.map_some] at h
    dsimp only at h
    rcases andThen_check h with ⟨hq, h⟩ | ⟨-, rfl⟩
    swap
    · exact (untouched ⟨rfl, rfl⟩).elim
    subst hq
    rcases changeFileKey_touched h with e | ⟨ha, h1, h2, s', hs, e1, e2, e3⟩
    · exact (untouched e).elim
    obtain ⟨t, ht', hx⟩ := saveStep_touched hs
    rw [e1] at ht'
    rw [e2, e3] at hx
    rcases hx with ⟨hx, hd⟩ | ⟨hx, hd⟩
    · exact (ht ⟨hd, by rw [ht']; simpa using hx⟩).elim
    · refine ⟨file, rfl, hp, ⟨k, hl, t, t.path, ht', rfl, hx, hd⟩, ha, ?_⟩
      by_cases hb : o.random = true ∧ o.newPFK.isSome
      · exact Or.inr hb
      · left
        rintro (hx | hx | hx | hx | hx)
        · exact h1 hx
        · exact hb hx
        · exact h2 hx
        · exact setSaltAndPFK_both (preparedOld_ok hp) hx
        · exact hgg (by simpa using hx)

/-- **C57 is violated**: `pfk --change … --random --new-pfk …` with both asks for two different new keys; it rewrites the file with the random key. -/
theorem C57_violated : ¬ C57_Statement := by
  intro H
  obtain ⟨C, hC⟩ := exists_lawful
  let E : PwEnv := ⟨fun _ _ => [], fun _ => true⟩
  obtain ⟨k, r, hl, hr, hro, ht⟩ := rekey_example hC E exTwoKeys rfl rfl rfl rfl rfl rfl exBytes (.random rfl rfl rfl (by decide)) (by decide) (Or.inl rfl)
  obtain ⟨file, -, -, -, -, hn⟩ := H C E exPfkEnv exTwoKeys (exStoreDisk C) r hC hr ht
  exact hn (Or.inr (Or.inl ⟨rfl, rfl⟩))

/-- non-vacuity of `C57_partial`: a file is changed without contradictory options -/
example {C : Codec} (hC : C.Lawful) (E : PwEnv) : ∃ r, pfkCommand C E exPfkEnv { exTwoKeys with newPFK := none } (exStoreDisk C) = some r ∧
    ¬ r.Untouched (exStoreDisk C) := by
  obtain ⟨k, r, hl, hr, hro, ht⟩ := rekey_example hC E { exTwoKeys with newPFK := none } rfl rfl rfl rfl rfl rfl exBytes (.random rfl rfl rfl (by decide)) (by decide)
    (Or.inl rfl)
  exact ⟨r, hr, ht⟩

/-! ## C67: the file can be opened with the new key and with no other -/

/-- **C67**.  If `pfk --change` loads the file with the old key, its options and answers ask for the new key `key'` (with the salt then in force), the user agrees and the
file can be written completely, then the command succeeds; the file holds what it held before, now under the new key; no other key opens it; no other file
is changed.  A random key is printed so that it can be given with `--pfk`. -/
theorem C67_rekey {C : Codec} (hC : C.Lawful) {E : PwEnv} {V : PfkEnv} {o : PfkCmd} {disk : Disk} {r : Course} {k : Krypto} {file path key' : List Nat}
    {salt' : Option (List Nat)} (h : pfkCommand C E V o disk = some r) (hg : o.genPFK = false) (hgs : o.genSalt = false) (hc : o.change = some file)
    (hp : (preparedOld E o.access o.old file).1 = .ok ()) (hl : load C E V.loadW disk (preparedOld E o.access o.old file).2 = some (.ok (), k))
    (hs : SaltAfter o.newSalt k.salt salt') (hk : NewKey E V o salt' key') (hlen : key'.length = 32) (ha : Agreed V o)
    (hr : Reads V.saveW k path) (hroom : V.saveW.room = none)
    (h0 : k.inst.groupSize ≠ 0) (h1 : k.inst.keyLength ≠ 0) (h2 : k.inst.columns ≠ 0) (h3 : k.inst.keyColumns ≠ 0) :
    r.outcome = .ok () ∧ Stored C r.state.disk path key' k.inst ∧ OnlyOpens C r.state.disk path key' ∧ (∀ p, p ≠ path → r.state.disk p = disk p) ∧
    (o.random = true → ∃ t, r.state.printed = [.text t] ∧ hexDecode t = some key') := by
  obtain ⟨x, y, hf⟩ := preparedOld_frame E o.access o.old file
  have hop : Opened C disk k := by
    rw [hf] at hl
    refine load_opened ?_ ?_ rfl hl
    · exact ⟨newBase_blank.keys, newBase_blank.messages, newBase_blank.callSign, newBase_blank.spareKeys, newBase_blank.spareMsgs⟩
    · exact Nat.le_refl 1
  unfold pfkCommand at h
  dsimp only at h
  rw [hg, hgs, hc] at h
  simp only [Bool.false_and, Bool.false_eq_true, if_false] at h
  rw [check_ok hp, andThen_go] at h
  unfold loadStep at h
  dsimp only at h
  rw [hl, Option.map_some, check_ok rfl, andThen_go] at h
  obtain ⟨p, hsv, hpr⟩ := changeFileKey_saves h hs hk hlen ha
  obtain ⟨s', hd, -, hprint, -, hoth, hst⟩ := saveStep_done hC (E := E) (W := V.saveW)
    (s := ⟨disk, { k with salt := salt', pfk := some key' }, [], p⟩) (path := path) (key := key') ⟨hr.named, hr.path, hr.stat, hr.opens⟩ rfl hlen hop.overwrite hroom
  have hfile := saveStep_file hsv ⟨hr.named, hr.path, hr.stat, hr.opens⟩ rfl hlen hop.overwrite hroom
  rw [hd, Option.some.injEq] at hsv
  subst hsv
  refine ⟨rfl, hst h0 h1 h2 h3, onlyOpens hC hlen hfile, hoth, ?_⟩
  intro hrand
  have hp' := hpr hrand
  refine ⟨hexEncode key', hprint.trans hp', hexDecode_encode _ ?_⟩
  cases hk with
  | random _ _ _ hb => exact hb
  | password _ e => rw [e] at hrand; simp at hrand
  | given _ e => rw [e] at hrand; simp at hrand
  | asked e => rw [e] at hrand; simp at hrand

/-- non-vacuity of `C67_rekey` -/
example {C : Codec} (hC : C.Lawful) (E : PwEnv) : ∃ k r, pfkCommand C E exPfkEnv exTwoKeys (exStoreDisk C) = some r ∧
    (preparedOld E exTwoKeys.access exTwoKeys.old [1]).1 = .ok () ∧
    load C E exPfkEnv.loadW (exStoreDisk C) (preparedOld E exTwoKeys.access exTwoKeys.old [1]).2 = some (.ok (), k) ∧ SaltAfter exTwoKeys.newSalt k.salt k.salt ∧
    NewKey E exPfkEnv exTwoKeys k.salt exBytes ∧ exBytes.length = 32 ∧ Agreed exPfkEnv exTwoKeys ∧ Reads exPfkEnv.saveW k [1] ∧ exPfkEnv.saveW.room = none ∧
    SameStore k.inst exStore := by
  obtain ⟨k, r, hl, hr, hro, ht⟩ := rekey_example hC E exTwoKeys rfl rfl rfl rfl rfl rfl exBytes (.random rfl rfl rfl (by decide)) (by decide) (Or.inl rfl)
  exact ⟨k, r, hr, congrArg Prod.fst (preparedOld_example E), hl, rfl, .random rfl rfl rfl (by decide), by decide, Or.inl rfl, hro.1, rfl, hro.2⟩

end K431
