import Verif.SpecStart
import Verif.InitLemmas
import Verif.CrashLemmas
import Verif.TalkLemmas

/-!
# Lemmas about `initialize` and the commands after it
-/

namespace K431
open Spec

/-- what the options for the key do depends on nothing else -/
theorem setSaltAndPFK_congr (E : PwEnv) (a : Access) {k k' : Krypto} (hs : k.salt = k'.salt) (hp : k.pfk = k'.pfk) :
    (setSaltAndPFK E a k).1 = (setSaltAndPFK E a k').1 ∧ (setSaltAndPFK E a k).2.salt = (setSaltAndPFK E a k').2.salt ∧
      (setSaltAndPFK E a k).2.pfk = (setSaltAndPFK E a k').2.pfk := by
  have key : ∀ x y : Krypto, x.salt = y.salt → x.pfk = y.pfk →
      ∀ f : Krypto → Outcome Unit × Krypto, (f = fun k => match a.pfk with
        | some s => setPFKFromString s k
        | none => match a.password with
          | some p => setPFKFromPassword E p k
          | none => (.ok (), k)) → (f x).1 = (f y).1 ∧ (f x).2.salt = (f y).2.salt ∧ (f x).2.pfk = (f y).2.pfk := by
    rintro x y hs hp f rfl
    dsimp only
    cases a.pfk with
    | some s =>
      dsimp only
      unfold setPFKFromString
      cases hexDecode s with
      | none => exact ⟨rfl, hs, hp⟩
      | some b => dsimp only; split <;> exact ⟨rfl, hs, by first | exact hp | rfl⟩
    | none =>
      cases a.password with
      | none => exact ⟨rfl, hs, hp⟩
      | some p =>
        dsimp only
        unfold setPFKFromPassword derivePFK
        dsimp only
        rw [← hs]
        cases hx : x.salt with
        | none => exact ⟨rfl, by dsimp only; rw [← hs], hp⟩
        | some b =>
          dsimp only
          split
          · exact ⟨rfl, by dsimp only; rw [← hs], hp⟩
          · rw [if_neg (by simp), if_neg (by simp)]
            exact ⟨rfl, rfl, rfl⟩
  unfold setSaltAndPFK
  split
  · exact ⟨rfl, hs, hp⟩
  · cases a.salt with
    | none => exact key k k' hs hp _ rfl
    | some s =>
      dsimp only
      unfold setSaltFromString
      cases hexDecode s with
      | none => exact ⟨rfl, hs, hp⟩
      | some b =>
        dsimp only
        by_cases hb : b.length < 32
        · rw [if_pos hb, if_pos hb]
          exact ⟨rfl, hs, hp⟩
        · rw [if_neg hb, if_neg hb]
          exact key { k with salt := some b } { k' with salt := some b } rfl hp _ rfl

/-- the instance `initialize` starts from -/
def initBase (U : Unicode) (file : List Nat) (yes : Bool) (call : Runes) (keyLength groupSize keyColumns columns : Int) : Krypto :=
  new [withPersistence file, withInteractive true, withKeyLength keyLength.toNat, withGroupSize groupSize.toNat,
    withKeyColumns keyColumns.toNat, withColumns columns.toNat, withCallSign U call, withOverwrite yes]

theorem initBase_frame {U : Unicode} (hU : U.Lawful) (file : List Nat) (yes : Bool) (c : Runes) (keyLength groupSize keyColumns columns : Int) :
    (initBase U file yes (toUpperStr U (trimSpace U c)) keyLength groupSize keyColumns columns).inst = ⟨groupSize.toNat, keyLength.toNat, columns.toNat, keyColumns.toNat, [], [],
      if (trimSpace U c).length < 2 then [] else toUpperStr U (trimSpace U c), 1⟩ ∧
    (initBase U file yes (toUpperStr U (trimSpace U c)) keyLength groupSize keyColumns columns).persistence = file ∧
    (initBase U file yes (toUpperStr U (trimSpace U c)) keyLength groupSize keyColumns columns).salt = (new [withPersistence file, withInteractive true]).salt ∧
    (initBase U file yes (toUpperStr U (trimSpace U c)) keyLength groupSize keyColumns columns).pfk = (new [withPersistence file, withInteractive true]).pfk := by
  unfold initBase
  simp only [new, List.foldl_cons, List.foldl_nil, withOverwrite, withCallSign]
  rw [setCallSign_given hU _ _ rfl]
  exact ⟨rfl, rfl, rfl, rfl⟩

/-- What `initialize` saves, and how. -/
theorem initStore_saves {C : Codec} {E : PwEnv} {U : Unicode} (hU : U.Lawful) {V : InitEnv} {a : Access} {file : List Nat} {yes : Bool} {c : Runes} {keys : Int}
    {expire : Runes} {keepers : List Runes} {keyLength groupSize keyColumns columns : Int} {disk : Disk} {r : Course}
    (h : initStore C E U V a file yes (toUpperStr U (trimSpace U c)) keys expire keepers keyLength groupSize keyColumns columns disk = some r) :
    r.state.touched = [] ∨
    ∃ s : Cmd, s.touched = [] ∧ s.disk = disk ∧ saveStep C E V.saveW s = some r ∧ (prepared E a file).1 = .ok () ∧ s.k.persistence = file ∧
      s.k.salt = (prepared E a file).2.salt ∧ s.k.pfk = (prepared E a file).2.pfk ∧
      (s.k.inst.groupSize : Int) = groupSize ∧ SettingsOk s.k.inst ∧
      s.k.inst.callSign = (if (trimSpace U c).length < 2 then [] else toUpperStr U (trimSpace U c)) ∧ s.k.inst.messages = [] ∧ s.k.inst.keys.length = keys.toNat ∧
      (∃ e, ∀ x ∈ s.k.inst.keys, Fresh s.k.inst e x) ∧ DistinctNames U (s.k.inst.keys.map (fun x => x.id.val)) := by
  unfold initStore at h
  dsimp only at h
  obtain ⟨b1, b2, b3, b4⟩ := initBase_frame hU file yes c keyLength groupSize keyColumns columns
  unfold initBase at b1 b2 b3 b4
  generalize new [withPersistence file, withInteractive true, withKeyLength keyLength.toNat, withGroupSize groupSize.toNat, withKeyColumns keyColumns.toNat,
    withColumns columns.toNat, withCallSign U (toUpperStr U (trimSpace U c)), withOverwrite yes] = k0 at h b1 b2 b3 b4
  obtain ⟨x, y, hf⟩ := setSaltAndPFK_frame E a k0
  obtain ⟨c1, c2, c3⟩ := setSaltAndPFK_congr E a b3 b4
  generalize setSaltAndPFK E a k0 = p at h hf c1 c2 c3
  rcases andThen_check h with ⟨hok, h⟩ | ⟨-, rfl⟩
  swap
  · exact Or.inl rfl
  dsimp only at h
  have hpi : p.2.inst = k0.inst := by rw [hf]
  have hpp : p.2.persistence = file := by rw [hf]; exact b2
  rcases andThen_check h with ⟨has, h⟩ | ⟨-, rfl⟩
  swap
  · exact Or.inl rfl
  dsimp only at h has
  unfold assertSettings at has
  rw [hpi, b1] at has
  dsimp only at has
  split at has
  · simp at has
  split at has
  · simp at has
  split at has
  · simp at has
  split at has
  · simp at has
  split at has
  · simp at has
  rename_i hg hkl hco hkc
  have hprep : (prepared E a file).1 = .ok () := by unfold prepared; rw [← c1]; exact hok
  split at h
  · rename_i hpos
    split at h
    · simp at h
    · rename_i o inst t' hge
      rcases andThen_check h with ⟨ho, h⟩ | ⟨-, rfl⟩
      · have hgs : p.2.inst.groupSize ≠ 0 := by rw [hpi, b1]; dsimp only; omega
        obtain ⟨hgen, -⟩ := C24_generate _ _ _ _ _ _ _ _ _ _ _ hgs hge
        obtain ⟨new, nx, e, e1, e2, -, -, e3, e4⟩ := hgen ho
        rw [hpi, b1] at e1 e3 e4
        dsimp only at e1 e3 e4
        refine Or.inr ⟨_, rfl, rfl, h, hprep, hpp, c2, c3, ?_⟩
        dsimp only
        rw [e1]
        refine ⟨by dsimp only; omega, ⟨by dsimp only; omega, by dsimp only; omega, by dsimp only; omega, by dsimp only; omega⟩, rfl, rfl, e2, ⟨e, ?_⟩, ?_⟩
        · intro x hx
          have := e3 x hx
          exact ⟨this.idLength, this.idLetters, this.letters, this.whole, this.long, this.notTooLong, this.unused, this.good, this.expires, this.noComment⟩
        · exact e4 List.Pairwise.nil
      · exact Or.inl rfl
  · refine Or.inr ⟨_, rfl, rfl, h, hprep, hpp, c2, c3, ?_⟩
    dsimp only
    rw [hpi, b1]
    refine ⟨by dsimp only; omega, ⟨by dsimp only; omega, by dsimp only; omega, by dsimp only; omega, by dsimp only; omega⟩, rfl, rfl, ?_, ⟨0, by simp⟩, List.Pairwise.nil⟩
    show 0 = _
    omega

/-- a file that `Save` has written completely -/
theorem saveStep_stored {C : Codec} (hC : C.Lawful) {E : PwEnv} {W : World} {s : Cmd} {r : Course} (h : saveStep C E W s = some r) (hs : SettingsOk s.k.inst)
    (ht : s.touched = []) (hr : r.outcome = .ok ()) (hw : ∃ t ∈ r.state.touched, t.contents ≠ []) (hroom : W.room = none) {path key : List Nat} (hp : resolvePath W s.k.persistence = some path)
    (hk : s.k.pfk = some key ∨ s.k.pfk = none ∧ ∃ pw salt, Confirmed E W pw ∧ s.k.salt = some salt ∧ key = E.kdf pw salt) (hl : key.length = 32) :
    Stored C r.state.disk path key s.k.inst ∧ s.k.persistence ≠ [] ∧ (s.k.pfk = none → ∀ salt, s.k.salt = some salt → 32 ≤ salt.length) := by
  obtain ⟨q, hq, rfl⟩ := saveStep_some h
  rw [check_outcome] at hr
  rw [check_state] at hw ⊢
  rcases save_cases hq with ⟨hc, -⟩ | ⟨path', key', e1, e2, e3, -, rfl, e5⟩
  · obtain ⟨t, htt, hne⟩ := hw
    simp only [Cmd.saved, ht, List.nil_append, List.mem_singleton] at htt
    subst htt
    exact absurd hc hne
  · rw [hp, Option.some.injEq] at e1
    subst e1
    have hkk : key' = key := by
      rcases hk with hk | ⟨hk, pw, salt, ⟨a, h1, h2⟩, h3, rfl⟩
      · rcases e5 with e5 | ⟨e5, -⟩
        · rw [hk] at e5; exact (Option.some.inj e5).symm
        · rw [hk] at e5; cases e5
      · rcases e5 with e5 | ⟨-, -, -, a', pw', salt', f1, f2, f3, -, rfl⟩
        · rw [hk] at e5; cases e5
        · rw [h1, Option.some.injEq] at f1
          subst f1
          rw [h2] at f2
          rw [h3] at f3
          simp only [Outcome.ok.injEq] at f2
          simp only [Option.some.injEq] at f3
          subst f2 f3
          rfl
    subst hkk
    have ho : W.openFails = false := by
      cases hof : W.openFails with
      | false => rfl
      | true =>
        unfold saveWrite at hr
        rw [if_pos hof] at hr
        simp at hr
    obtain ⟨-, hd⟩ := saveWrite_done C W key' { s.k with persistence := path, pfk := some key' } hl ho hroom s.disk
    refine ⟨?_, e2, ?_⟩
    swap
    · intro hn salt hs
      rcases e5 with e5 | ⟨-, -, -, -, -, salt', -, -, f3, f4, -⟩
      · rw [hn] at e5; cases e5
      · rw [hs, Option.some.injEq] at f3; rw [f3]; exact f4
    simp only [Cmd.saved]
    rw [hd]
    exact stored_of_dec hl (set_same _ _ _) (hC.right _ _ _ hl) (by have := hs.groupSize; omega) (by have := hs.keyLength; omega) (by have := hs.columns; omega)
      (by have h1 := hs.keyColumns; have h2 := hs.groupSize; omega)

/-- the branches of `initialize` -/
theorem initCommand_cases {C : Codec} {E : PwEnv} {U : Unicode} {V : InitEnv} {o : InitCmd} {disk : Disk} {r : Course} (h : initCommand C E U V o disk = some r) :
    r.state.touched = [] ∨ ∃ keys groupSize keyLength expire keepers, Wanted V o keys groupSize ∧
      initStore C E U V o.access o.file (o.yes.getD false) (toUpperStr U (trimSpace U (givenCall V o))) keys expire keepers keyLength groupSize o.keyColumns o.columns disk = some r := by
  unfold initCommand at h
  dsimp only at h
  cases hcall : o.call with
  | none =>
    rw [hcall] at h
    dsimp only at h
    split at h
    · simp only [Option.some.injEq] at h; left; rw [← h]; rfl
    · rename_i call hca
      split at hca
      · simp at hca
      · split at hca
        · simp at hca
        · simp only [Option.some.injEq] at hca
          subst hca
          rw [show V.call = givenCall V o by simp [givenCall, hcall]] at h
          split at h
          · rename_i hint
            have hall : AsksAll o := by
              simp only [Bool.and_eq_true, Option.isNone_iff_eq_none] at hint
              exact ⟨hint.1.1.1.1.1, hcall, hint.1.1.1.2, hint.1.1.2, hint.1.2, hint.2⟩
            split at h
            · simp only [Option.some.injEq] at h; left; rw [← h]; rfl
            · rename_i a ha
              exact .inr ⟨_, _, _, _, _, .inl ⟨hall, a, ha, rfl, rfl⟩, h⟩
          · rename_i hint
            refine .inr ⟨_, _, _, _, _, .inr ⟨?_, rfl, rfl⟩, h⟩
            rintro ⟨h1, h2, h3, h4, h5, h6⟩
            apply hint
            simp [h1, h3, h4, h5, h6]
  | some c =>
    rw [hcall] at h
    dsimp only at h
    rw [show c = givenCall V o by simp [givenCall, hcall], if_neg (by simp)] at h
    refine .inr ⟨_, _, _, _, _, .inr ⟨?_, rfl, rfl⟩, h⟩
    rintro ⟨-, h2, -⟩
    rw [hcall] at h2
    cases h2

theorem Wanted.unique {V : InitEnv} {o : InitCmd} {n g n' g' : Int} (h : Wanted V o n g) (h' : Wanted V o n' g') : n = n' ∧ g = g' := by
  rcases h with ⟨h1, a, h2, rfl, rfl⟩ | ⟨h1, rfl, rfl⟩ <;> rcases h' with ⟨h1', a', h2', rfl, rfl⟩ | ⟨h1', rfl, rfl⟩
  · rw [h2, Option.some.injEq] at h2'; subst h2'; exact ⟨rfl, rfl⟩
  · exact absurd h1 h1'
  · exact absurd h1' h1
  · exact ⟨rfl, rfl⟩

end K431
