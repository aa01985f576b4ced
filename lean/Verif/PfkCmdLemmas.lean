import Verif.CliLemmas
import Verif.PfkLemmas

/-!
# Lemmas about the command `pfk`
-/

namespace K431

theorem andThen_check {o : Outcome Unit} {s : Cmd} {f : Cmd → Option Course} {r : Course} (h : andThen (some (check o s)) f = some r) :
    (o = .ok () ∧ f s = some r) ∨ (o ≠ .ok () ∧ r = .stop o s) := by
  by_cases ho : o = .ok ()
  · rw [check_ok ho, andThen_go] at h; exact Or.inl ⟨ho, h⟩
  · rw [check_stop ho, andThen_stop] at h; exact Or.inr ⟨ho, by simpa using h.symm⟩

theorem unlessDeclined_cases {V : PfkEnv} {yes : Bool} {s : Cmd} {next : Cmd → Option Course} {r : Course} (h : unlessDeclined V yes s next = some r) :
    r.state = s ∨ ((yes = true ∨ V.confirm = some true) ∧ next s = some r) := by
  unfold unlessDeclined at h
  split at h
  · rename_i hy; exact Or.inr ⟨Or.inl hy, h⟩
  · split at h
    · simp only [Option.some.injEq] at h; subst h; exact Or.inl rfl
    · simp only [Option.some.injEq] at h; subst h; exact Or.inl rfl
    · rename_i hc; exact Or.inr ⟨Or.inr hc, h⟩

/-- Nothing is written before the user has agreed, nor with these contradictory options; there is at most one attempt to save. -/
theorem changeFileKey_touched {C : Codec} {E : PwEnv} {V : PfkEnv} {o : PfkCmd} {s : Cmd} {r : Course} (h : changeFileKey C E V o s = some r) :
    (r.state.touched = s.touched ∧ r.state.disk = s.disk) ∨
    (Agreed V o ∧ ¬ (o.random = true ∧ o.new.isSome) ∧ ¬ (o.new.isSome ∧ o.newPFK.isSome) ∧
      ∃ s' : Cmd, saveStep C E V.saveW s' = some r ∧ s'.touched = s.touched ∧ s'.disk = s.disk ∧ s'.k.persistence = s.k.persistence) := by
  unfold changeFileKey at h
  dsimp only at h
  have hsalt : (setNewSalt o.newSalt s.k).2.persistence = s.k.persistence := by
    unfold setNewSalt
    cases o.newSalt with
    | none => rfl
    | some t => obtain ⟨a, e⟩ := setSalt_frame (if t = ascii "default" then defaultSalt else t) s.k; dsimp only; rw [e]
  rcases andThen_check h with ⟨-, h⟩ | ⟨-, rfl⟩
  swap
  · exact Or.inl ⟨rfl, rfl⟩
  dsimp only at h
  generalize (setNewSalt o.newSalt s.k).2 = k1 at h hsalt
  split at h
  · simp only [Option.some.injEq] at h; subst h; exact Or.inl ⟨rfl, rfl⟩
  rename_i h1
  split at h
  · simp only [Option.some.injEq] at h; subst h; exact Or.inl ⟨rfl, rfl⟩
  rename_i h2
  have hh : ¬ (o.random = true ∧ o.new.isSome) ∧ ¬ (o.new.isSome ∧ o.newPFK.isSome) := by
    simp only [Bool.and_eq_true] at h1 h2
    exact ⟨h1, fun ⟨a, b⟩ => h2 ⟨b, a⟩⟩
  split at h
  · rcases unlessDeclined_cases h with h | ⟨hc, h⟩
    · left; rw [h]; exact ⟨rfl, rfl⟩
    · split at h
      · simp only [Option.some.injEq] at h; subst h; exact Or.inl ⟨rfl, rfl⟩
      · simp only [Option.some.injEq] at h; subst h; exact Or.inl ⟨rfl, rfl⟩
      · rename_i t _
        rcases andThen_check h with ⟨-, h⟩ | ⟨-, rfl⟩
        · obtain ⟨a, e⟩ := setPFK_frame t k1
          exact Or.inr ⟨hc.elim Or.inl (fun h => Or.inr (Or.inl h)), hh.1, hh.2, _, h, rfl, rfl, by dsimp only; rw [e]; exact hsalt⟩
        · exact Or.inl ⟨rfl, rfl⟩
  · rename_i hr
    cases hn : o.new with
    | some pw =>
      rw [hn] at h
      dsimp only at h
      rcases andThen_check h with ⟨-, h⟩ | ⟨-, rfl⟩
      · rcases unlessDeclined_cases h with h | ⟨hc, h⟩
        · left; rw [h]; exact ⟨rfl, rfl⟩
        · right; rw [hn] at hh
          obtain ⟨a, e⟩ := setPassword_frame E pw k1
          exact ⟨hc.elim Or.inl (fun h => Or.inr (Or.inl h)), hh.1, hh.2, _, h, rfl, rfl, by dsimp only; rw [e]; exact hsalt⟩
      · exact Or.inl ⟨rfl, rfl⟩
    | none =>
      rw [hn] at h
      dsimp only at h
      cases hp : o.newPFK with
      | some t =>
        rw [hp] at h
        dsimp only at h
        rcases andThen_check h with ⟨-, h⟩ | ⟨-, rfl⟩
        · rcases unlessDeclined_cases h with h | ⟨hc, h⟩
          · left; rw [h]; exact ⟨rfl, rfl⟩
          · right
            obtain ⟨a, e⟩ := setPFK_frame t k1
            exact ⟨hc.elim Or.inl (fun h => Or.inr (Or.inl h)), by simp, by simp, _, h, rfl, rfl, by dsimp only; rw [e]; exact hsalt⟩
        · exact Or.inl ⟨rfl, rfl⟩
      | none =>
        rw [hp] at h
        dsimp only at h
        split at h
        · simp at h
        · rename_i q k2 hq
          rcases andThen_check h with ⟨-, h⟩ | ⟨-, rfl⟩
          · right
            refine ⟨Or.inr (Or.inr ⟨by simpa using hr, hn, hp⟩), by simp, by simp, _, h, rfl, rfl, ?_⟩
            dsimp only
            unfold askNewPFK at hq
            split at hq
            · simp at hq
            · split at hq <;> simp only [Option.some.injEq, Prod.mk.injEq] at hq
              · rw [← hq.2]; exact hsalt
              · rw [← hq.2]; exact hsalt
              · rename_i pw _
                obtain ⟨a, e⟩ := derive_frame E false V.noise (some ⟨pw, false⟩) k1
                rw [← hq.2, e]; exact hsalt
          · exact Or.inl ⟨rfl, rfl⟩

theorem generatePFK_touched {E : PwEnv} {V : PfkEnv} {o : PfkCmd} {s : Cmd} {r : Course} (h : generatePFKCommand E V o s = some r) :
    r.state.touched = s.touched ∧ r.state.disk = s.disk := by
  unfold generatePFKCommand at h
  dsimp only at h
  rcases andThen_check h with ⟨-, h⟩ | ⟨-, rfl⟩
  swap
  · exact ⟨rfl, rfl⟩
  dsimp only at h
  rcases andThen_check h with ⟨-, h⟩ | ⟨-, rfl⟩
  swap
  · exact ⟨rfl, rfl⟩
  dsimp only at h
  split at h
  · split at h <;> simp only [Option.some.injEq] at h <;> subst h <;> exact ⟨rfl, rfl⟩
  · split at h
    · rcases andThen_check h with ⟨-, h⟩ | ⟨-, rfl⟩
      · simp only [Option.some.injEq] at h; subst h; exact ⟨rfl, rfl⟩
      · exact ⟨rfl, rfl⟩
    · split at h
      · simp at h
      · rcases andThen_check h with ⟨-, h⟩ | ⟨-, rfl⟩
        · simp only [Option.some.injEq] at h; subst h; exact ⟨rfl, rfl⟩
        · exact ⟨rfl, rfl⟩

/-- one attempt to save -/
theorem saveStep_touched {C : Codec} {E : PwEnv} {W : World} {s : Cmd} {r : Course} (h : saveStep C E W s = some r) :
    ∃ t, r.state.touched = s.touched ++ [t] ∧
      ((t.contents = [] ∧ r.state.disk = s.disk) ∨ (resolvePath W s.k.persistence = some t.path ∧ ∀ p, p ≠ t.path → r.state.disk p = s.disk p)) := by
  obtain ⟨q, hq, rfl⟩ := saveStep_some h
  rw [check_state]
  refine ⟨⟨q.k.persistence, q.contents⟩, rfl, ?_⟩
  rcases save_cases hq with ⟨hc, -⟩ | ⟨path, key, h1, -, -, -, rfl, -⟩
  · left
    refine ⟨hc, ?_⟩
    simp [Cmd.saved, SaveRun.disk, hc]
  · right
    simp only [saveWrite_k]
    refine ⟨h1, fun p hp => ?_⟩
    simp only [Cmd.saved, SaveRun.disk, saveWrite_k]
    generalize List.getLast? _ = c
    cases c with
    | none => rfl
    | some c => exact set_other _ _ hp

theorem setSaltAndPFK_both {E : PwEnv} {a : Access} {k : Krypto} (h : (setSaltAndPFK E a k).1 = .ok ()) : ¬ (a.pfk.isSome ∧ a.password.isSome) := by
  intro ⟨h1, h2⟩
  unfold setSaltAndPFK at h
  rw [if_pos (by simp [h1, h2])] at h
  simp at h

theorem preparedOld_ok {E : PwEnv} {a : Access} {old : Option (List Nat)} {file : List Nat} (h : (preparedOld E a old file).1 = .ok ()) :
    (prepared E a file).1 = .ok () := by
  unfold preparedOld at h
  rcases hp : prepared E a file with ⟨o, k⟩
  rw [hp] at h
  cases o with
  | ok u => rfl
  | err e => simp at h
  | panic => simp at h

/-- After the salt and the new key are set, the file is saved. -/
theorem changeFileKey_runs {C : Codec} {E : PwEnv} {V : PfkEnv} {o : PfkCmd} {s : Cmd} {key' : List Nat} {salt' : Option (List Nat)}
    (hs : SaltAfter o.newSalt s.k.salt salt') (hk : NewKey E V o salt' key') (hl : key'.length = 32) (ha : Agreed V o) :
    ∃ p, changeFileKey C E V o s = saveStep C E V.saveW { s with k := { s.k with salt := salt', pfk := some key' }, printed := p } ∧
      (o.random = true → p = s.printed ++ [.text (hexEncode key')]) := by
  generalize h : changeFileKey C E V o s = r
  unfold changeFileKey at h
  dsimp only at h
  have hq : setNewSalt o.newSalt s.k = (.ok (), { s.k with salt := salt' }) := by
    unfold SaltAfter at hs
    unfold setNewSalt
    cases hn : o.newSalt with
    | none => rw [hn] at hs; dsimp only at hs ⊢; rw [hs]
    | some t =>
      rw [hn] at hs
      dsimp only at hs ⊢
      obtain ⟨b, h1, h2, rfl⟩ := hs
      unfold setSaltFromString
      rw [h1]
      dsimp only
      rw [if_neg (by omega)]
  rw [hq] at h
  rw [check_ok rfl, andThen_go] at h
  dsimp only at h
  have agreed : ∀ (s : Cmd) (next : Cmd → Option Course), (o.yes = true ∨ V.confirm = some true) → unlessDeclined V o.yes s next = next s := by
    intro s next hy
    unfold unlessDeclined
    by_cases hyy : o.yes = true
    · rw [if_pos hyy]
    · rw [if_neg hyy, hy.resolve_left hyy]
  cases hk with
  | random h1 h2 h3 h4 =>
    have hy : o.yes = true ∨ V.confirm = some true := by
      rcases ha with h | h | h
      · exact Or.inl h
      · exact Or.inr h
      · rw [h1] at h; simp at h
    rw [if_neg (by simp [h2]), if_neg (by simp [h2]), if_pos h1, agreed _ _ hy, h3] at h
    simp only [generateHex32, setPFKFromString, hexDecode_encode _ h4] at h
    rw [if_neg (by simpa using hl), check_ok rfl, andThen_go] at h
    exact ⟨_, h.symm, fun _ => rfl⟩
  | password h1 h2 h3 h4 h5 =>
    have hy : o.yes = true ∨ V.confirm = some true := by
      rcases ha with h | h | h
      · exact Or.inl h
      · exact Or.inr h
      · rw [h1] at h; simp at h
    subst h4
    rw [if_neg (by simp [h2]), if_neg (by simp [h3]), if_neg (by simp [h2]), h1] at h
    dsimp only at h
    unfold setPFKFromPassword derivePFK at h
    dsimp only at h
    rw [if_neg (by omega)] at h
    simp only [Bool.false_and, Bool.false_eq_true, if_false, check_ok, andThen_go] at h
    rw [agreed _ _ hy] at h
    exact ⟨_, h.symm, by simp [h2]⟩
  | given h1 h2 h3 h4 =>
    have hy : o.yes = true ∨ V.confirm = some true := by
      rcases ha with h | h | h
      · exact Or.inl h
      · exact Or.inr h
      · rw [h1] at h; simp at h
    rw [if_neg (by simp [h2]), if_neg (by simp [h3]), if_neg (by simp [h2]), h3, h1] at h
    dsimp only at h
    unfold setPFKFromString at h
    rw [h4] at h
    dsimp only at h
    rw [if_neg (by simpa using hl), check_ok rfl, andThen_go, agreed _ _ hy] at h
    exact ⟨_, h.symm, by simp [h2]⟩
  | asked h1 h2 h3 h4 h5 h6 h7 =>
    subst h6
    rw [if_neg (by simp [h1]), if_neg (by simp [h3]), if_neg (by simp [h1]), h2, h3] at h
    dsimp only at h
    unfold askNewPFK at h
    rw [h4] at h
    dsimp only at h
    rw [h5] at h
    unfold derivePFK at h
    dsimp only at h
    rw [if_neg (by omega)] at h
    simp only [Bool.false_and, Bool.false_eq_true, if_false, check_ok, andThen_go] at h
    exact ⟨_, h.symm, by simp [h1]⟩

/-- After the salt and the new key are set, the file is saved. -/
theorem changeFileKey_saves {C : Codec} {E : PwEnv} {V : PfkEnv} {o : PfkCmd} {s : Cmd} {key' : List Nat} {salt' : Option (List Nat)} {r : Course}
    (h : changeFileKey C E V o s = some r) (hs : SaltAfter o.newSalt s.k.salt salt') (hk : NewKey E V o salt' key') (hl : key'.length = 32) (ha : Agreed V o) :
    ∃ p, saveStep C E V.saveW { s with k := { s.k with salt := salt', pfk := some key' }, printed := p } = some r ∧
      (o.random = true → p = s.printed ++ [.text (hexEncode key')]) := by
  obtain ⟨p, a, b⟩ := changeFileKey_runs (C := C) hs hk hl ha
  exact ⟨p, by rw [← a]; exact h, b⟩

/-- what the file contains after saving an opened store -/
theorem saveStep_file {C : Codec} {E : PwEnv} {W : World} {s : Cmd} {r : Course} {path key : List Nat} (h : saveStep C E W s = some r) (hr : Reads W s.k path)
    (hk : s.k.pfk = some key) (hl : key.length = 32) (ho : s.k.overwrite = true) (hroom : W.room = none) :
    r.state.disk path = some (C.enc key W.nonce (gobInst s.k.inst)) := by
  obtain ⟨a, b⟩ := saveWrite_done C W key { s.k with persistence := path } hl hr.opens hroom s.disk
  obtain ⟨q, hq, rfl⟩ := saveStep_some h
  rw [save_opened hr hk ho, Option.some.injEq] at hq
  subst hq
  rw [check_state]
  simp only [Cmd.saved]
  rw [b]
  exact set_same _ _ _

/-- a file encrypted with a key is opened by no other -/
theorem onlyOpens {C : Codec} (hC : C.Lawful) {disk : Disk} {path key : List Nat} {n : Nat} {w : Wire} (hl : key.length = 32)
    (hd : disk path = some (C.enc key n w)) : OnlyOpens C disk path key := by
  intro E W k k' other hr hk hlo hne h
  rw [load_key hr hk (by rw [hd]; simp)] at h
  unfold loadRead at h
  rw [if_neg (by simp [hr.opens]), if_neg (by omega)] at h
  dsimp only at h
  rw [hd] at h
  dsimp only at h
  have := hC.wrong key other n w (C.enc key n w).length hl hlo (Ne.symm hne)
  rw [List.take_of_length_le (Nat.le_refl _)] at this
  rw [List.take_of_length_le (by omega), this] at h
  simp at h

end K431
