import Verif.SpecKeyed
import Verif.PfkCmdLemmas

/-! # Helper lemmas: which key opens a file -/

namespace K431
open Spec

theorem askForPassword_entered {m : Nat} {pw : List Nat} : ∀ {inputs : List (Option (List Nat))} {n : Nat}, askForPassword m inputs = some (some pw, n) → some pw ∈ inputs := by
  intro inputs
  induction inputs with
  | nil => intro n h; cases h
  | cons a l ih =>
    intro n h
    rcases a with _ | p
    · cases h
    · simp only [askForPassword] at h
      split at h
      · rw [Option.map_eq_some_iff] at h
        obtain ⟨⟨x, y⟩, h1, h2⟩ := h
        cases h2
        exact List.mem_cons_of_mem _ (ih h1)
      · cases h
        exact List.mem_cons_self

/-- a file that can be loaded was written with the key used -/
theorem load_keyed {C : Codec} (hC : C.Lawful) {E : PwEnv} {W : World} {disk : Disk} {k k' : Krypto} {path key : List Nat} (hlen : key.length = 32) (hp : resolvePath W k.persistence = some path)
    (hs : SealedWith C disk path key) (h : load C E W disk k = some (.ok (), k')) :
    (∃ b, k.pfk = some b ∧ b.take 32 = key) ∨ ∃ pw salt, some pw ∈ W.inputs ∧ (E.kdf pw salt).take 32 = key := by
  obtain ⟨path', key', c, w, h1, h2, h3, h4, -, h5⟩ := load_ok h
  rw [hp] at h1
  cases h1
  obtain ⟨n, w', i, hs⟩ := hs
  rw [hs] at h2
  cases h2
  have e : key'.take 32 = key := by
    by_contra hne
    rw [hC.wrong key (key'.take 32) n w' i hlen (by rw [List.length_take]; omega) (fun e => hne e.symm)] at h4
    cases h4
  rcases h5 with h5 | ⟨-, -, -, pw, m, salt, h6, -, -, rfl⟩
  · exact .inl ⟨key', h5, e⟩
  · exact .inr ⟨pw, salt, askForPassword_entered h6, e⟩

/-- where the key comes from that is tried -/
theorem setSaltAndPFK_keyed {E : PwEnv} {a : Access} {k : Krypto} (hk : k.pfk = none) {b : List Nat} (h : (setSaltAndPFK E a k).2.pfk = some b) :
    (∃ t, a.pfk = some t ∧ hexDecode t = some b) ∨ ∃ pw salt, a.password = some pw ∧ b = E.kdf pw salt := by
  unfold setSaltAndPFK at h
  have key : ∀ k1 : Krypto, k1.pfk = none → ((match a.pfk with
      | some s => setPFKFromString s k1
      | none => match a.password with | some p => setPFKFromPassword E p k1 | none => (Outcome.ok (), k1) : Outcome Unit × Krypto)).2.pfk = some b →
      (∃ t, a.pfk = some t ∧ hexDecode t = some b) ∨ ∃ pw salt, a.password = some pw ∧ b = E.kdf pw salt := by
    intro k1 hk1 h
    rcases hp : a.pfk with _ | t
    · rw [hp] at h
      dsimp only at h
      rcases hw : a.password with _ | pw
      · rw [hw] at h
        dsimp only at h
        rw [hk1] at h; cases h
      · rw [hw] at h
        simp only [setPFKFromPassword, derivePFK] at h
        rcases hs : k1.salt with _ | salt
        · simp only [hs] at h; rw [hk1] at h; cases h
        · simp only [hs, Bool.false_and, Bool.false_eq_true, if_false] at h
          split at h
          · rw [hk1] at h; cases h
          · cases h
            exact .inr ⟨pw, salt, rfl, rfl⟩
    · rw [hp] at h
      simp only [setPFKFromString] at h
      rcases ht : hexDecode t with _ | b'
      · rw [ht] at h; dsimp only at h; rw [hk1] at h; cases h
      · rw [ht] at h
        dsimp only at h
        split at h
        · rw [hk1] at h; cases h
        · cases h
          exact .inl ⟨t, rfl, ht⟩
  split at h
  · rw [hk] at h; cases h
  · generalize a.salt = sa at h
    rcases sa with _ | s
    · exact key k hk h
    · dsimp only at h
      have hf : ∃ x, (setSaltFromString s k).2 = { k with salt := x } := by
        unfold setSaltFromString
        repeat' split
        · exact ⟨k.salt, rfl⟩
        · exact ⟨k.salt, rfl⟩
        · exact ⟨_, rfl⟩
      obtain ⟨x, hf⟩ := hf
      generalize setSaltFromString s k = r at h hf
      obtain ⟨o, k1⟩ := r
      dsimp only at hf
      have hk1 : k1.pfk = none := by rw [hf]; exact hk
      rcases o with ⟨⟨⟩⟩ | e | _
      · exact key k1 hk1 h
      · dsimp only at h; rw [hk1] at h; cases h
      · dsimp only at h; rw [hk1] at h; cases h

theorem load_prepared_keyed {C : Codec} (hC : C.Lawful) {E : PwEnv} {W : World} {disk : Disk} {a : Access} {file : List Nat} {k' : Krypto} {path key : List Nat} (hlen : key.length = 32)
    (hp : resolvePath W file = some path) (hs : SealedWith C disk path key) (h : load C E W disk (prepared E a file).2 = some (.ok (), k')) : Provided E a.pfk (a.password :: W.inputs) key := by
  obtain ⟨x, y, hf⟩ := prepared_frame E a file
  rcases load_keyed hC hlen (by rw [hf]; exact hp) hs h with ⟨b, hb, e⟩ | ⟨pw, salt, hb, e⟩
  · rcases setSaltAndPFK_keyed rfl hb with ⟨t, h1, h2⟩ | ⟨pw, salt, h1, rfl⟩
    · exact .inl ⟨t, b, h1, h2, e⟩
    · exact .inr ⟨pw, salt, by rw [h1]; exact List.mem_cons_self, e⟩
  · exact .inr ⟨pw, salt, List.mem_cons_of_mem _ hb, e⟩

/-- opening the store is refused, or the key is right -/
theorem openStore_refused {C : Codec} (hC : C.Lawful) {E : PwEnv} {W : World} {disk : Disk} {a : Access} {file : List Nat} {c : Course} {path key : List Nat} (hlen : key.length = 32)
    (hp : resolvePath W file = some path) (hs : SealedWith C disk path key) (hk : ¬ Provided E a.pfk (a.password :: W.inputs) key) (h : openStore C E W a file disk = some c) :
    ∃ o s, c = .stop o s ∧ Refused c disk := by
  unfold openStore at h
  dsimp only at h
  rcases andThen_check h with ⟨-, h⟩ | ⟨ho, rfl⟩
  · unfold loadStep at h
    dsimp only at h
    rcases hl : load C E W disk (prepared E a file).2 with _ | ⟨o, k⟩
    · rw [hl] at h; cases h
    · rw [hl] at h
      simp only [Option.map_some, Option.some.injEq] at h
      have ho : o ≠ .ok () := by
        rintro rfl
        exact hk (load_prepared_keyed hC hlen hp hs hl)
      rw [check_stop ho] at h
      subst h
      exact ⟨_, _, rfl, ho, rfl, rfl, rfl⟩
  · exact ⟨_, _, rfl, ho, rfl, rfl, rfl⟩

end K431
