import Verif.PersistLemmas
import Mathlib.Tactic.DeriveCountable
import Mathlib.Logic.Equiv.List
import Mathlib.Data.Countable.Basic

/-!
# A codec that obeys the laws, and examples of saving and loading
-/

namespace K431

deriving instance Countable for WireKey
deriving instance Countable for WireMsg
deriving instance Countable for Wire

/-- The laws of the codec can be satisfied. -/
theorem exists_lawful : ∃ C : Codec, C.Lawful := by
  obtain ⟨f, hf⟩ := Countable.exists_injective_nat Wire
  classical
  refine ⟨⟨fun key _ w => key ++ [f w, 0], fun _ _ _ => 0,
    fun key c => if c.take 32 = key ∧ 33 ≤ c.length then (if h : ∃ w, f w = c.getD 32 0 then some h.choose else none) else none⟩, ?_⟩
  have main : ∀ (key : List Nat) (w : Wire) (i : Nat), key.length = 32 →
      (if ((key ++ [f w, 0]).take i).take 32 = key ∧ 33 ≤ ((key ++ [f w, 0]).take i).length then
        (if h : ∃ w', f w' = ((key ++ [f w, 0]).take i).getD 32 0 then some h.choose else none) else none) = if i ≤ 32 then none else some w := by
    intro key w i hl
    by_cases hi : i ≤ 32
    · rw [if_neg, if_pos hi]
      simp; omega
    · rw [if_neg hi]
      have h1 : ((key ++ [f w, 0]).take i).take 32 = key := by
        rw [List.take_take, Nat.min_eq_left (by omega), List.take_append, hl]
        simp [List.take_of_length_le (show key.length ≤ 32 by omega)]
      have h2 : ((key ++ [f w, 0]).take i).getD 32 0 = f w := by
        rw [List.getD_eq_getElem?_getD, List.getElem?_take, if_pos (by omega), List.getElem?_append_right (by omega)]
        simp [hl]
      rw [if_pos ⟨h1, by simp; omega⟩, dif_pos ⟨w, h2.symm⟩]
      congr 1
      exact hf ((Exists.choose_spec (⟨w, h2.symm⟩ : ∃ w', f w' = ((key ++ [f w, 0]).take i).getD 32 0)).trans h2)
  refine ⟨?_, ?_, ?_, ?_, ?_⟩
  · intro key n w hl
    have := main key w 34 hl
    rw [List.take_of_length_le (l := key ++ [f w, 0]) (i := 34) (by simp [hl])] at this
    dsimp only
    rw [this]; simp
  · intro key key' n w i hl hl' hne
    dsimp only
    rw [if_neg]
    rintro ⟨h1, h2⟩
    apply hne
    rw [← h1, List.take_take, List.take_append]
    simp at h2
    rw [Nat.min_eq_left (by omega)]
    simp [hl, List.take_of_length_le (show key.length ≤ 32 by omega)]
  · intro key n w i hl
    dsimp only
    rw [main key w i hl]
    split <;> simp
  · intro key; simp
  · intro key n w hl; simp

/-- a world in which nothing fails and nobody answers -/
def exWorld : World := ⟨some [], fun a b => a ++ b, false, none, [], false, false, 0, none, none⟩
/-- a file key -/
def exPFK : List Nat := List.replicate 32 7
/-- a key -/
def exPersistKey : Key := ⟨⟨1, [65]⟩, [66, 67], [], 0, 1, false, false, []⟩
/-- an instance with these keys, the file `[1]` and overwriting allowed or not -/
def exKrypto (overwrite : Bool) (keys : List Key) : Krypto :=
  ⟨[1], some exPFK, none, overwrite, false, false, ⟨5, 350, 110, 30, keys, [], [83, 65], 2⟩, [], []⟩
/-- no files -/
def exDisk : Disk := fun _ => none

/-- loading a complete file -/
theorem load_complete {C : Codec} (hC : C.Lawful) (E : PwEnv) {disk : Disk} {n : Nat} {i : Inst} {k : Krypto} (hp : k.persistence = [1]) (hk : k.pfk = some exPFK)
    (hd : disk [1] = some (C.enc exPFK n (gobInst i))) :
    load C E exWorld disk k = some (.ok (), { gobDecode (gobInst i) k with overwrite := true }) := by
  rw [load_key (path := [1]) (key := exPFK) ⟨by simp [hp], by rw [hp]; decide, rfl, rfl⟩ (Or.inl hk) (by rw [hd]; simp)]
  unfold loadRead
  rw [if_neg (by decide), if_neg (by decide)]
  dsimp only
  rw [hd]
  dsimp only
  rw [show exPFK.take 32 = exPFK from by decide, hC.right _ _ _ (by decide)]
  rw [← hp, ← hk]

/-- saving to the example file -/
theorem save_example (C : Codec) (E : PwEnv) {disk : Disk} {W : World} (hW : W.statFails = false) {keys : List Key} {b : Bool} (hd : disk [1] = none ∨ b = true) :
    save C E W disk (exKrypto b keys) = some (saveWrite C W exPFK (exKrypto b keys)) := by
  have hr : resolvePath W [1] = some [1] := rfl
  have hk : saveKey C E W (exKrypto b keys) = some (saveWrite C W exPFK (exKrypto b keys)) := rfl
  unfold save
  rw [if_neg (by simp [exKrypto]), show (exKrypto b keys).persistence = [1] from rfl, hr]
  dsimp only
  rw [if_neg (by simp [hW])]
  rcases hd with hd | rfl
  · rw [hd]; exact hk
  · split
    · exact hk
    · exact hk

end K431
