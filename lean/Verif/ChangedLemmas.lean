import Verif.PropsRekey

/-!
# What success of `pfk --change` means
-/

namespace K431

theorem setNewSalt_ok {n : Option (List Nat)} {k : Krypto} (h : (setNewSalt n k).1 = .ok ()) : ∃ salt', SaltAfter n k.salt salt' ∧ (setNewSalt n k).2 = { k with salt := salt' } := by
  rcases n with _ | t
  · exact ⟨k.salt, rfl, rfl⟩
  · unfold setNewSalt setSaltFromString at h ⊢
    unfold SaltAfter
    dsimp only at h ⊢
    generalize hexDecode (if t = ascii "default" then defaultSalt else t) = d at h ⊢
    rcases d with _ | b
    · cases h
    · dsimp only at h ⊢
      split at h
      · cases h
      · rename_i hb
        rw [if_neg hb]
        exact ⟨some b, ⟨b, rfl, Nat.not_lt.1 hb, rfl⟩, rfl⟩

theorem unlessDeclined_ok {V : PfkEnv} {yes : Bool} {s : Cmd} {next : Cmd → Option Course} {r : Course} (h : unlessDeclined V yes s next = some r) (ho : r.outcome = .ok ()) :
    (yes = false ∧ V.confirm = some false ∧ r.state = s) ∨ ((yes = true ∨ V.confirm = some true) ∧ next s = some r) := by
  unfold unlessDeclined at h
  cases hy : yes with
  | true => rw [hy] at h; exact .inr ⟨.inl rfl, h⟩
  | false =>
    rw [hy] at h
    simp only [Bool.false_eq_true, if_false] at h
    rcases hc : V.confirm with _ | _ | _
    · rw [hc] at h; cases h; cases ho
    · rw [hc] at h; cases h; exact .inl ⟨rfl, rfl, rfl⟩
    · rw [hc] at h; exact .inr ⟨.inr rfl, h⟩

theorem setPFK_ok {t : List Nat} {k : Krypto} (h : (setPFKFromString t k).1 = .ok ()) : ∃ key, hexDecode t = some key ∧ key.length = 32 ∧ (setPFKFromString t k).2 = { k with pfk := some key } := by
  unfold setPFKFromString at h ⊢
  generalize hexDecode t = d at h ⊢
  rcases d with _ | b
  · cases h
  · dsimp only at h ⊢
    split at h
    · cases h
    · rename_i hb
      rw [if_neg hb]
      exact ⟨b, rfl, not_not.1 hb, rfl⟩

theorem derive_ok {E : PwEnv} {noise : Option (Nat → Nat)} {pw : List Nat} {k : Krypto} (h : (derivePFK E false noise (some ⟨pw, false⟩) k).1 = .ok ()) :
    ∃ sa, k.salt = some sa ∧ 32 ≤ sa.length ∧ (derivePFK E false noise (some ⟨pw, false⟩) k).2.1 = { k with pfk := some (E.kdf pw sa) } := by
  unfold derivePFK at h ⊢
  dsimp only at h ⊢
  rcases hs : k.salt with _ | sa
  · rw [hs] at h; cases h
  · rw [hs] at h
    dsimp only at h ⊢
    split at h
    · cases h
    · rename_i hb
      rw [if_neg hb]
      exact ⟨sa, rfl, Nat.not_lt.1 hb, rfl⟩

/-- The user was asked whether to change the key, and declined. -/
def DeclinedChange (V : PfkEnv) (o : PfkCmd) : Prop := o.yes = false ∧ V.confirm = some false ∧ (o.random = true ∨ o.new.isSome ∨ o.newPFK.isSome)

theorem changeFileKey_success {C : Codec} {E : PwEnv} {V : PfkEnv} {o : PfkCmd} {s : Cmd} {r : Course} (h : changeFileKey C E V o s = some r) (ho : r.outcome = .ok ())
    (hdraw : ∀ bytes, V.draw = some bytes → ∀ b ∈ bytes, b < 256) (hE : ∀ pw sa, (E.kdf pw sa).length = 32) :
    ∃ salt', SaltAfter o.newSalt s.k.salt salt' ∧ ((DeclinedChange V o ∧ r.state.disk = s.disk ∧ r.state.touched = s.touched) ∨
      ∃ key p, NewKey E V o salt' key ∧ key.length = 32 ∧ Agreed V o ∧
        saveStep C E V.saveW { s with k := { s.k with salt := salt', pfk := some key }, printed := p } = some r) := by
  unfold changeFileKey at h
  dsimp only at h
  rcases andThen_check h with ⟨hq, h⟩ | ⟨hne, rfl⟩
  swap
  · exact absurd ho hne
  obtain ⟨salt', hsa, e⟩ := setNewSalt_ok hq
  rw [e] at h
  refine ⟨salt', hsa, ?_⟩
  split at h
  · cases h; cases ho
  rename_i h1
  split at h
  · cases h; cases ho
  rename_i h2
  simp only [Bool.and_eq_true, not_and, Bool.not_eq_true, Option.isSome_eq_false_iff, Option.isNone_iff_eq_none] at h1 h2
  split at h
  · rename_i hr
    rcases unlessDeclined_ok h ho with ⟨a, b, hst⟩ | ⟨hc, h⟩
    · exact .inl ⟨⟨a, b, .inl hr⟩, by rw [hst], by rw [hst]⟩
    · unfold generateHex32 at h
      rcases hd : V.draw with _ | bytes
      · rw [hd] at h; cases h; cases ho
      · rw [hd] at h
        dsimp only at h
        rcases andThen_check h with ⟨hk, h⟩ | ⟨hne, rfl⟩
        · obtain ⟨key, g1, g2, g3⟩ := setPFK_ok hk
          rw [hexDecode_encode _ (hdraw _ hd), Option.some.injEq] at g1
          subst g1
          rw [g3] at h
          exact .inr ⟨bytes, _, .random hr (h1 hr) hd (hdraw _ hd), g2, hc.elim .inl (fun h => .inr (.inl h)), h⟩
        · exact absurd ho hne
  · rename_i hr
    rw [Bool.not_eq_true] at hr
    rcases hn : o.new with _ | pw
    · rw [hn] at h
      dsimp only at h
      rcases hp : o.newPFK with _ | t
      · rw [hp] at h
        dsimp only at h
        unfold askNewPFK at h
        rcases ha : askAndConfirm E.strong V.inputs with _ | a
        · rw [ha] at h; cases h
        · rw [ha] at h
          dsimp only at h
          rcases hres : a.result with pw | er | _
          · rw [hres] at h
            dsimp only at h
            rcases andThen_check h with ⟨hk, h⟩ | ⟨hne, rfl⟩
            · obtain ⟨sa, g1, g2, g3⟩ := derive_ok hk
              rw [g3] at h
              exact .inr ⟨_, _, .asked hr hn hp ha hres g1 g2, hE _ _, .inr (.inr ⟨hr, hn, hp⟩), h⟩
            · exact absurd ho hne
          · rw [hres] at h; cases h; cases ho
          · rw [hres] at h; cases h; cases ho
      · rw [hp] at h
        dsimp only at h
        rcases andThen_check h with ⟨hk, h⟩ | ⟨hne, rfl⟩
        · obtain ⟨key, g1, g2, g3⟩ := setPFK_ok hk
          rw [g3] at h
          rcases unlessDeclined_ok h ho with ⟨a, b, hst⟩ | ⟨hc, h⟩
          · exact .inl ⟨⟨a, b, .inr (.inr (by rw [hp]; rfl))⟩, by rw [hst], by rw [hst]⟩
          · exact .inr ⟨key, _, .given hp hr hn g1, g2, hc.elim .inl (fun h => .inr (.inl h)), h⟩
        · exact absurd ho hne
    · rw [hn] at h
      dsimp only at h
      rcases andThen_check h with ⟨hk, h⟩ | ⟨hne, rfl⟩
      · obtain ⟨sa, g1, g2, g3⟩ := derive_ok hk
        replace g3 : (setPFKFromPassword E pw { s.k with salt := salt' }).2 = _ := g3
        rw [g3] at h
        rcases unlessDeclined_ok h ho with ⟨a, b, hst⟩ | ⟨hc, h⟩
        · exact .inl ⟨⟨a, b, .inr (.inl (by rw [hn]; rfl))⟩, by rw [hst], by rw [hst]⟩
        · refine .inr ⟨_, _, .password hn hr ?_ g1 g2, hE _ _, hc.elim .inl (fun h => .inr (.inl h)), h⟩
          rcases hp : o.newPFK with _ | t
          · rfl
          · rw [hp, hn] at h2
            exact absurd (h2 rfl) (by simp)
      · exact absurd ho hne

end K431
