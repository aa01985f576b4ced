import Verif.ChangedLemmas

/-!
# C140: success of `pfk --change` means that the key is changed
-/

namespace K431

/-- **C140**: if `pfk --change` ends without error, the file was loaded; and either the user was asked and declined, and then no file is
touched; or the user agreed, and the file holds what it held before under the key that options and answers ask for, no other key opens it and no other file is changed. -/
theorem C140_success {C : Codec} (hC : C.Lawful) {E : PwEnv} {V : PfkEnv} {o : PfkCmd} {disk : Disk} {r : Course} {file : List Nat} (h : pfkCommand C E V o disk = some r)
    (hg : o.genPFK = false) (hgs : o.genSalt = false) (hc : o.change = some file) (ho : r.outcome = .ok ()) (hroom : V.saveW.room = none)
    (hdraw : ∀ bytes, V.draw = some bytes → ∀ b ∈ bytes, b < 256) (hE : ∀ pw sa, (E.kdf pw sa).length = 32) :
    ∃ k salt', load C E V.loadW disk (preparedOld E o.access o.old file).2 = some (.ok (), k) ∧ SaltAfter o.newSalt k.salt salt' ∧
      ((DeclinedChange V o ∧ r.state.disk = disk ∧ r.state.touched = []) ∨
        ∃ key path, NewKey E V o salt' key ∧ Agreed V o ∧ resolvePath V.saveW k.persistence = some path ∧
          (k.inst.groupSize ≠ 0 → k.inst.keyLength ≠ 0 → k.inst.columns ≠ 0 → k.inst.keyColumns ≠ 0 → Stored C r.state.disk path key k.inst) ∧
          OnlyOpens C r.state.disk path key ∧ ∀ p, p ≠ path → r.state.disk p = disk p) := by
  unfold pfkCommand at h
  dsimp only at h
  rw [hg, hgs, hc] at h
  simp only [Bool.false_and, Bool.false_eq_true, if_false] at h
  by_cases hp : (preparedOld E o.access o.old file).1 = .ok ()
  swap
  · rw [check_stop hp] at h
    simp only [andThen_stop, Option.some.injEq] at h
    subst h; exact absurd ho hp
  rw [check_ok hp, andThen_go] at h
  unfold loadStep at h
  dsimp only at h
  rcases hl : load C E V.loadW disk (preparedOld E o.access o.old file).2 with _ | ⟨q, k⟩
  · rw [hl] at h; simp [andThen] at h
  rw [hl, Option.map_some] at h
  dsimp only at h
  rcases andThen_check h with ⟨hq, h⟩ | ⟨hne, rfl⟩
  swap
  · exact absurd ho hne
  subst hq
  have hop : Opened C disk k := by
    obtain ⟨x, y, hf⟩ := preparedOld_frame E o.access o.old file
    rw [hf] at hl
    refine load_opened ?_ ?_ rfl hl
    · exact ⟨newBase_blank.keys, newBase_blank.messages, newBase_blank.callSign, newBase_blank.spareKeys, newBase_blank.spareMsgs⟩
    · exact Nat.le_refl 1
  obtain ⟨salt', hsa, hd | ⟨key, p, hk, hlen, ha, hsv⟩⟩ := changeFileKey_success h ho hdraw hE
  · exact ⟨k, salt', rfl, hsa, .inl hd⟩
  refine ⟨k, salt', rfl, hsa, .inr ?_⟩
  have hr : ∃ path, Reads V.saveW k path := by
    obtain ⟨q, hq, rfl⟩ := saveStep_some hsv
    have hqo : q.outcome = .ok () := by
      by_cases e : q.outcome = .ok ()
      · exact e
      · rw [check_stop e] at ho; exact absurd ho e
    rcases save_cases hq with ⟨-, -, -, e⟩ | ⟨path, key', h1, h2, h3, -, e, -⟩
    · obtain ⟨-, -, -, -, e', -⟩ := e hqo
      exact absurd (hop.overwrite.symm.trans e') (by decide)
    · refine ⟨path, h2, h1, h3, ?_⟩
      rw [e] at hqo
      unfold saveWrite at hqo
      split at hqo
      · cases hqo
      · rename_i hf; simpa using hf
  obtain ⟨path, hr⟩ := hr
  obtain ⟨s', hd, -, -, -, hoth, hst⟩ := saveStep_done hC (E := E) (W := V.saveW)
    (s := ⟨disk, { k with salt := salt', pfk := some key }, [], p⟩) (path := path) (key := key) ⟨hr.named, hr.path, hr.stat, hr.opens⟩ rfl hlen hop.overwrite hroom
  have hfile := saveStep_file hsv ⟨hr.named, hr.path, hr.stat, hr.opens⟩ rfl hlen hop.overwrite hroom
  rw [hd, Option.some.injEq] at hsv
  subst hsv
  exact ⟨key, path, hk, ha, hr.path, hst, onlyOpens hC hlen hfile, hoth⟩

/-- non-vacuity: the key of the example file is changed successfully -/
example {C : Codec} (hC : C.Lawful) : ∃ (E : PwEnv) (r : Course), pfkCommand C E exPfkEnv exTwoKeys (exStoreDisk C) = some r ∧ r.outcome = .ok () ∧ exPfkEnv.saveW.room = none ∧
    (∀ bytes, exPfkEnv.draw = some bytes → ∀ b ∈ bytes, b < 256) ∧ ∀ pw sa, (E.kdf pw sa).length = 32 := by
  let E : PwEnv := ⟨fun _ _ => exPFK, fun _ => true⟩
  obtain ⟨k, r, hl, hr, hro, ht⟩ := rekey_example hC E exTwoKeys rfl rfl rfl rfl rfl rfl exBytes (.random rfl rfl rfl (by decide)) (by decide) (Or.inl rfl)
  obtain ⟨f1, f2, f3, f4⟩ : k.inst.groupSize ≠ 0 ∧ k.inst.keyLength ≠ 0 ∧ k.inst.columns ≠ 0 ∧ k.inst.keyColumns ≠ 0 := by
    rw [hro.2.groupSize, hro.2.keyLength, hro.2.columns, hro.2.keyColumns]; decide
  refine ⟨E, r, hr, (C67_rekey hC hr rfl rfl rfl (congrArg Prod.fst (preparedOld_example E)) hl rfl (.random rfl rfl rfl (by decide)) (by decide) (Or.inl rfl) hro.1 rfl f1 f2 f3 f4).1, rfl, ?_, fun _ _ => rfl⟩
  intro bytes hb
  cases hb
  decide

end K431
