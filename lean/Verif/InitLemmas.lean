import Verif.PfkCmdLemmas
import Verif.EncLemmas
import Verif.PropsKeys

/-!
# Lemmas about the command `initialize`
-/

namespace K431

/-- Who loads a file after an attempt to save gets what was saved. -/
theorem saveStep_loads {C : Codec} (hC : C.Lawful) {E : PwEnv} {W : World} {s : Cmd} {r : Course} (h : saveStep C E W s = some r)
    (h0 : s.k.inst.groupSize ≠ 0) (h1 : s.k.inst.keyLength ≠ 0) (h2 : s.k.inst.columns ≠ 0) (h3 : s.k.inst.keyColumns ≠ 0) :
    ∃ t, r.state.touched = s.touched ++ [t] ∧ (t.contents ≠ [] →
      ∀ (E' : PwEnv) (W' : World) (k k' : Krypto), Blank k → Reads W' k t.path → load C E' W' r.state.disk k = some (.ok (), k') → SameStore k'.inst s.k.inst) := by
  obtain ⟨q, hq, rfl⟩ := saveStep_some h
  rw [check_state]
  refine ⟨⟨q.k.persistence, q.contents⟩, rfl, ?_⟩
  rcases save_cases hq with ⟨hc, -⟩ | ⟨path, key, -, -, -, -, rfl, -⟩
  · intro hn; exact absurd hc hn
  · intro hn E' W' k k' hb hr hl
    dsimp only at hn hr
    rw [saveWrite_k] at hr
    dsimp only at hr
    obtain ⟨p, key2, c, w, e1, e2, e3, e4, rfl, -⟩ := load_ok hl
    rw [hr.path, Option.some.injEq] at e1
    subst e1
    have hlast : ∃ d ∈ (saveWrite C W key { s.k with persistence := path, pfk := some key }).contents,
        (saveWrite C W key { s.k with persistence := path, pfk := some key }).disk s.disk path = some d := by
      obtain ⟨d, hd⟩ : ∃ d, (saveWrite C W key { s.k with persistence := path, pfk := some key }).contents.getLast? = some d := by
        cases hg : (saveWrite C W key { s.k with persistence := path, pfk := some key }).contents.getLast? with
        | none => exact absurd (List.getLast?_eq_none_iff.1 hg) hn
        | some d => exact ⟨d, rfl⟩
      refine ⟨d, List.mem_of_getLast? hd, ?_⟩
      unfold SaveRun.disk
      rw [hd, saveWrite_k]
      exact set_same _ _ _
    obtain ⟨d, hd, he⟩ := hlast
    simp only [Cmd.saved] at e2
    rw [he, Option.some.injEq] at e2
    subst e2
    have hw : w = gobInst s.k.inst := by
      rcases saveWrite_contents C W key { s.k with persistence := path, pfk := some key } d hd with rfl | ⟨hl', i, rfl⟩
      · rw [hC.empty] at e4; simp at e4
      · by_cases hk : key.take 32 = key2.take 32
        · rw [← hk] at e4
          rcases hC.part (key.take 32) W.nonce (gobInst s.k.inst) i (by simp; omega) with hx | hx
          · dsimp only at e4; rw [hx] at e4; simp at e4
          · dsimp only at e4; rw [hx] at e4; simpa using e4.symm
        · have := hC.wrong (key.take 32) (key2.take 32) W.nonce (gobInst s.k.inst) i (by simp; omega) (by simp; omega) hk
          dsimp only at e4; rw [this] at e4; simp at e4
    subst hw
    exact (gobDecode_blank (k := { k with persistence := path, pfk := some key2 }) ⟨hb.keys, hb.messages, hb.callSign, hb.spareKeys, hb.spareMsgs⟩
      s.k.inst h0 h1 h2 h3).1

/-- the call-sign of the instance `initialize` starts from -/
theorem setCallSign_given {U : Unicode} (hU : U.Lawful) (c : Runes) (k : Krypto) (hk : k.inst.callSign = []) :
    (setCallSign U (toUpperStr U (trimSpace U c)) k).2 =
      { k with inst := { k.inst with callSign := if (trimSpace U c).length < 2 then [] else toUpperStr U (trimSpace U c) } } := by
  unfold setCallSign
  dsimp only
  rw [trimSpace_toUpper hU, trimSpace_idem, toUpperStr_idem hU]
  have : (toUpperStr U (trimSpace U c)).length = (trimSpace U c).length := by simp [toUpperStr]
  rw [this]
  split
  · cases k with
    | mk a b c d e f i g h => cases i; simp only at hk; subst hk; rfl
  · rfl

/-- What `initialize` saves. -/
theorem initStore_cases {C : Codec} (hC : C.Lawful) {E : PwEnv} {U : Unicode} (hU : U.Lawful) {V : InitEnv} {a : Access} {file : List Nat} {yes : Bool} {c : Runes} {keys : Int}
    {expire : Runes} {keepers : List Runes} {keyLength groupSize keyColumns columns : Int} {disk : Disk} {r : Course}
    (h : initStore C E U V a file yes (toUpperStr U (trimSpace U c)) keys expire keepers keyLength groupSize keyColumns columns disk = some r) :
    r.state.touched = [] ∨
    ∃ t i, r.state.touched = [t] ∧ 1 ≤ i.groupSize ∧ 20 ≤ i.keyLength ∧ 85 ≤ i.columns ∧ i.groupSize ≤ i.keyColumns ∧
      (i.groupSize : Int) = groupSize ∧ (i.keyLength : Int) = keyLength ∧ (i.columns : Int) = columns ∧ (i.keyColumns : Int) = keyColumns ∧
      i.callSign = (if (trimSpace U c).length < 2 then [] else toUpperStr U (trimSpace U c)) ∧ i.keys.length = keys.toNat ∧ i.messages = [] ∧
      (t.contents ≠ [] → ∀ (E' : PwEnv) (W' : World) (k k' : Krypto), Blank k → Reads W' k t.path → load C E' W' r.state.disk k = some (.ok (), k') →
        SameStore k'.inst i) := by
  unfold initStore at h
  dsimp only at h
  generalize hk0 : new [withPersistence file, withInteractive true, withKeyLength keyLength.toNat, withGroupSize groupSize.toNat, withKeyColumns keyColumns.toNat,
    withColumns columns.toNat, withCallSign U (toUpperStr U (trimSpace U c)), withOverwrite yes] = k0 at h
  have hi : k0.inst = ⟨groupSize.toNat, keyLength.toNat, columns.toNat, keyColumns.toNat, [], [],
      if (trimSpace U c).length < 2 then [] else toUpperStr U (trimSpace U c), 1⟩ := by
    rw [← hk0]
    simp only [new, List.foldl_cons, List.foldl_nil, withOverwrite, withCallSign]
    rw [setCallSign_given hU _ _ rfl]
    rfl
  obtain ⟨x, y, hf⟩ := setSaltAndPFK_frame E a k0
  generalize setSaltAndPFK E a k0 = p at h hf
  rcases andThen_check h with ⟨-, h⟩ | ⟨-, rfl⟩
  swap
  · exact Or.inl rfl
  dsimp only at h
  have hpi : p.2.inst = k0.inst := by rw [hf]
  rcases andThen_check h with ⟨has, h⟩ | ⟨-, rfl⟩
  swap
  · exact Or.inl rfl
  dsimp only at h has
  unfold assertSettings at has
  rw [hpi, hi] at has
  dsimp only at has
  split at has
  · simp at has
  split at has
  · simp at has
  split at has
  · simp at has
  split at has
  · simp at has
  split at has
  · simp at has
  rename_i hg hkl hco hkc
  suffices done : r.state.touched = [] ∨ ∃ s : Cmd, s.touched = [] ∧ (∃ ks nx, s.k.inst = { k0.inst with keys := ks, nextAddr := nx } ∧ ks.length = keys.toNat) ∧
      saveStep C E V.saveW s = some r by
    rcases done with done | ⟨s, ht, hs, h⟩
    · exact Or.inl done
    · clear hpi hf hk0
      obtain ⟨ks, nx, hs, hlen⟩ := hs
      rw [hi] at hs
      dsimp only at hs
      obtain ⟨t, e1, e2⟩ := saveStep_loads hC h (by rw [hs]; dsimp only; omega) (by rw [hs]; dsimp only; omega) (by rw [hs]; dsimp only; omega)
        (by rw [hs]; dsimp only; omega)
      right
      refine ⟨t, s.k.inst, by rw [e1, ht]; rfl, ?_, ?_, ?_, ?_, ?_, ?_, ?_, ?_, ?_, ?_, ?_, e2⟩ <;> rw [hs] <;> dsimp only
      · omega
      · omega
      · omega
      · omega
      · omega
      · omega
      · omega
      · omega
      · exact hlen
  split at h
  · rename_i hpos
    split at h
    · simp at h
    · rename_i o inst t' hge
      rcases andThen_check h with ⟨ho, h⟩ | ⟨-, rfl⟩
      · have hgs : p.2.inst.groupSize ≠ 0 := by rw [hpi, hi]; dsimp only; omega
        obtain ⟨hok, -⟩ := C24_generate _ _ _ _ _ _ _ _ _ _ _ hgs hge
        obtain ⟨new, nx, e, e1, e2, -⟩ := hok ho
        refine Or.inr ⟨_, ?_, ⟨new, nx, ?_, e2⟩, h⟩
        · rfl
        dsimp only
        rw [e1, hpi, hi]; rfl
      · exact Or.inl rfl
  · refine Or.inr ⟨_, ?_, ⟨[], 1, ?_, ?_⟩, h⟩
    · rfl
    · dsimp only; rw [hpi, hi]
    · simp; omega

end K431
