import Verif.OpeningLemmas

/-!
# C139: with the right key the file opens
-/

namespace K431

/-- **C139**, `keys` and `messages`: whichever way the right key is given, the commands open the file and have what it holds; nothing is written or printed meanwhile. -/
theorem C139_opens {C : Codec} {E : PwEnv} {W : World} {a : Access} {file path salt key : List Nat} {disk : Disk} {i : Inst} (hs : SaltInForce a.salt salt)
    (h : GivesKey E W a none salt key) (hf : file ≠ []) (hp : resolvePath W file = some path) (h1 : W.statFails = false) (h2 : W.openFails = false) (hst : Stored C disk path key i) :
    ∃ k, openStore C E W a file disk = some (.go ⟨disk, k, [], []⟩) ∧ SameStore k.inst i := by
  obtain ⟨g1, g2, g3⟩ := preparedOld_gives (file := file) hs h
  have e : preparedOld E a none file = prepared E a file := by
    unfold preparedOld
    split
    · rename_i h; exact h.symm
    · rfl
  rw [e] at g1 g2 g3
  obtain ⟨k, hl, hsame⟩ := hst E W _ (prepared_blank E a file) ⟨by rw [g2]; exact hf, by rw [g2]; exact hp, h1, h2⟩ g3
  refine ⟨k, ?_, hsame⟩
  unfold openStore
  dsimp only
  rw [check_ok g1, andThen_go]
  unfold loadStep
  dsimp only
  rw [hl]; rfl

/-- **C139**, `pfk --change`: likewise, where the old password may be given as well. -/
theorem C139_change {C : Codec} {E : PwEnv} {W : World} {a : Access} {old : Option (List Nat)} {file path salt key : List Nat} {disk : Disk} {i : Inst} (hs : SaltInForce a.salt salt)
    (h : GivesKey E W a old salt key) (hf : file ≠ []) (hp : resolvePath W file = some path) (h1 : W.statFails = false) (h2 : W.openFails = false) (hst : Stored C disk path key i) :
    (preparedOld E a old file).1 = .ok () ∧ ∃ k, load C E W disk (preparedOld E a old file).2 = some (.ok (), k) ∧ SameStore k.inst i := by
  obtain ⟨g1, g2, g3⟩ := preparedOld_gives (file := file) hs h
  have hb : Blank (preparedOld E a old file).2 := by
    obtain ⟨x, y, hf⟩ := preparedOld_frame E a old file
    rw [hf]
    exact ⟨newBase_blank.keys, newBase_blank.messages, newBase_blank.callSign, newBase_blank.spareKeys, newBase_blank.spareMsgs⟩
  exact ⟨g1, hst E W _ hb ⟨by rw [g2]; exact hf, by rw [g2]; exact hp, h1, h2⟩ g3⟩

/-- non-vacuity: the example file is opened with its key, and, if it is the key derived from a password with the default salt, with that password as `--password` or as old password -/
example {C : Codec} (hC : C.Lawful) (E : PwEnv) (pw : List Nat) : ∃ salt, SaltInForce none salt ∧ GivesKey E exWorld exAccess none salt exPFK ∧
    (E.kdf pw salt = exPFK → GivesKey E exWorld { password := some pw } none salt exPFK ∧ GivesKey E exWorld {} (some pw) salt exPFK) ∧ Stored C (exStoreDisk C) [1] exPFK exStore ∧
    resolvePath exWorld [1] = some [1] ∧ exWorld.statFails = false ∧ exWorld.openFails = false := by
  obtain ⟨salt, h1, h2⟩ := defaultSalt_decodes
  exact ⟨salt, ⟨h1, h2⟩, .pfk rfl rfl rfl (by decide) (by decide), fun h => ⟨.password rfl rfl rfl h, .old rfl rfl h⟩,
    stored_of_dec (by decide) (set_same _ _ _) (hC.right _ _ _ (by decide)) (by decide) (by decide) (by decide) (by decide), rfl, rfl, rfl⟩

end K431
