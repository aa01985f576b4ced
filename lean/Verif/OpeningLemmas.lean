import Verif.PropsRekeys

/-!
# The salt and the key that a command is given
-/

namespace K431

/-- The salt in force: the one given by `--salt`, hexadecimal and at least 32 bytes long, or else the default. -/
def SaltInForce (given : Option (List Nat)) (salt : List Nat) : Prop := hexDecode (given.getD defaultSalt) = some salt ∧ 32 ≤ salt.length

/-- How the user gives the file key: by `--pfk`; as a password by `--password`; as the old password of `pfk --change`; or as a password entered when asked. -/
inductive GivesKey (E : PwEnv) (W : World) (a : Access) (old : Option (List Nat)) (salt key : List Nat) : Prop
  | pfk {t : List Nat} : a.pfk = some t → a.password = none → old = none → hexDecode t = some key → key.length = 32 → GivesKey E W a old salt key
  | password {pw : List Nat} : a.pfk = none → a.password = some pw → old = none → E.kdf pw salt = key → GivesKey E W a old salt key
  | old {pw : List Nat} : a.pfk = none → old = some pw → E.kdf pw salt = key → GivesKey E W a old salt key
  | entered {pw : List Nat} {rest : List (Option (List Nat))} : a.pfk = none → a.password = none → old = none → W.terminal = true → W.inputs = some pw :: rest → E.kdf pw salt = key →
      GivesKey E W a old salt key

/-- the instance before the key is set -/
def saltedBase (file salt : List Nat) : Krypto := { newBase with persistence := file, interactive := true, salt := some salt }

theorem prepared_salt (E : PwEnv) {a : Access} {file salt : List Nat} (hs : SaltInForce a.salt salt) (hb : (a.pfk.isSome && a.password.isSome) = false) :
    prepared E a file = match a.pfk with
      | some s => setPFKFromString s (saltedBase file salt)
      | none => match a.password with
        | some p => setPFKFromPassword E p (saltedBase file salt)
        | none => (.ok (), saltedBase file salt) := by
  obtain ⟨h1, h2⟩ := hs
  unfold prepared setSaltAndPFK
  rw [if_neg (by simp [hb])]
  rcases ha : a.salt with _ | s
  · rw [ha] at h1
    have e : newBase.salt = some salt := h1
    have e' : new [withPersistence file, withInteractive true] = saltedBase file salt := by
      unfold saltedBase; rw [← e]; rfl
    rw [e']
    dsimp only
    rcases a.pfk with _ | t <;> rcases a.password with _ | q <;> rfl
  · rw [ha] at h1
    replace h1 : hexDecode s = some salt := h1
    have e' : setSaltFromString s (new [withPersistence file, withInteractive true]) = (.ok (), saltedBase file salt) := by
      unfold setSaltFromString
      rw [h1]
      dsimp only
      rw [if_neg (Nat.not_lt.2 h2)]
      rfl
    dsimp only
    rw [e']
    dsimp only
    rcases a.pfk with _ | t <;> rcases a.password with _ | q <;> rfl

theorem setPFKFromPassword_ok (E : PwEnv) (pw : List Nat) {k : Krypto} {salt : List Nat} (hs : k.salt = some salt) (h : 32 ≤ salt.length) :
    setPFKFromPassword E pw k = (.ok (), { k with pfk := some (E.kdf pw salt) }) := by
  simp [setPFKFromPassword, derivePFK, hs, Nat.not_lt.2 h, Buf.val]

theorem preparedOld_gives {E : PwEnv} {W : World} {a : Access} {old : Option (List Nat)} {file salt key : List Nat} (hs : SaltInForce a.salt salt) (h : GivesKey E W a old salt key) :
    (preparedOld E a old file).1 = .ok () ∧ (preparedOld E a old file).2.persistence = file ∧ LoadsWith E W (preparedOld E a old file).2 key := by
  have h2 := hs.2
  unfold preparedOld
  cases h with
  | pfk h3 h4 h5 h6 h7 =>
    rw [prepared_salt E hs (by simp [h4])]
    simp [h3, h5, setPFKFromString, h6, h7, LoadsWith, saltedBase]
  | password h3 h4 h5 h6 =>
    rw [prepared_salt E hs (by simp [h3]), h3, h4, h5]
    dsimp only
    rw [setPFKFromPassword_ok E _ rfl h2, h6]
    exact ⟨rfl, rfl, .inl rfl⟩
  | old h3 h4 h5 =>
    rw [prepared_salt E hs (by simp [h3]), h3, h4]
    rcases hp : a.password with _ | p
    · dsimp only
      rw [setPFKFromPassword_ok E _ rfl h2, h5]
      exact ⟨rfl, rfl, .inl rfl⟩
    · dsimp only
      rw [setPFKFromPassword_ok E p rfl h2]
      dsimp only
      rw [setPFKFromPassword_ok E _ rfl h2, h5]
      exact ⟨rfl, rfl, .inl rfl⟩
  | entered h3 h4 h5 h6 h7 h8 =>
    rw [prepared_salt E hs (by simp [h3]), h3, h4, h5]
    exact ⟨rfl, rfl, .inr ⟨rfl, rfl, h6, _, _, _, h7, rfl, h2, h8⟩⟩

end K431
