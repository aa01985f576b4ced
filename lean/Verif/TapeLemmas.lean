import Verif.AirLemmas
import Verif.PropsRandom
import Verif.PropsKeys

/-! # Helper lemmas: stores made with the same ids differ in the letters of the keys only -/

namespace K431
open Spec

theorem SameFace.snoc {a b : List Key} {k l : Key} (h : SameFace a b) (h1 : l = { k with runes := l.runes }) (h2 : l.runes.length = k.runes.length) :
    SameFace (a ++ [k]) (b ++ [l]) := by
  induction h with
  | nil => exact .cons ⟨h1, h2⟩ .nil
  | cons hx _ ih => exact .cons hx ih

theorem generateLoop_face {U : Unicode} {now : Nat → Int} {e : Int} {keepers : List Runes} : ∀ {n : Nat} {inst i1 i2 : Inst} {keys : List Key} {t t1 s s1 : Tape},
    SameFace inst.keys keys → generateLoop U now e keepers n inst t = some (i1, t1) →
    generateLoop U now e keepers n { inst with keys := keys } s = some (i2, s1) →
    i1.keys.map (fun k => k.id.val) = i2.keys.map (fun k => k.id.val) → i2 = { i1 with keys := i2.keys } ∧ SameFace i1.keys i2.keys := by
  intro n
  induction n with
  | zero =>
    intro inst i1 i2 keys t t1 s s1 hf h1 h2 _
    simp only [generateLoop, Option.some.injEq, Prod.mk.injEq] at h1 h2
    obtain ⟨rfl, _⟩ := h1
    obtain ⟨rfl, _⟩ := h2
    exact ⟨rfl, hf⟩
  | succ n ih =>
    intro inst i1 i2 keys t t1 s s1 hf h1 h2 hids
    simp only [generateLoop] at h1 h2
    rcases hk1 : newKey U (now n) e keepers inst t with _ | ⟨k1, j1, t2⟩
    · rw [hk1] at h1; cases h1
    rcases hk2 : newKey U (now n) e keepers { inst with keys := keys } s with _ | ⟨k2, j2, s2⟩
    · rw [hk2] at h2; cases h2
    rw [hk1] at h1
    rw [hk2] at h2
    simp only at h1 h2
    obtain ⟨a1, a2, _, _, _, _, a7, a8, a9, a10, a11, a12, a13, _⟩ := newKey_spec hk1
    obtain ⟨b1, b2, _, _, _, _, b7, b8, b9, b10, b11, b12, b13, _⟩ := newKey_spec hk2
    simp only at b1 b2 b7 b13
    have p1 := (generateLoop_keysP U now e keepers n j1 t2).2 _ h1
    have p2 := (generateLoop_keysP U now e keepers n j2 s2).2 _ h2
    have hid : k1.id.val = k2.id.val := by
      have q1 : i1.keys[inst.keys.length]? = some k1 := by
        obtain ⟨r, hr⟩ := p1
        simp only [a1] at hr
        rw [← hr]; simp
      have q2 : i2.keys[inst.keys.length]? = some k2 := by
        obtain ⟨r, hr⟩ := p2
        simp only [b1] at hr
        rw [← hr, ← hf.length]; simp
      have := congrArg (fun l => l[inst.keys.length]?) hids
      simp only [List.getElem?_map, q1, q2, Option.map_some, Option.some.injEq] at this
      exact this
    have hface : k2 = { k1 with runes := k2.runes } := by
      rcases k1 with ⟨⟨_, _⟩, _, _, _, _, _, _, _⟩
      rcases k2 with ⟨⟨_, _⟩, _, _, _, _, _, _, _⟩
      simp only at *
      subst a2 b2 a8 a9 a10 a11 a12 a13 b8 b9 b10 b11 b12 b13 hid
      rfl
    refine ih (inst := j1) (keys := j2.keys) (t := t2) (t1 := t1) (s := s2) (s1 := s1) ?_ h1 ?_ hids
    · rw [a1, b1]
      exact hf.snoc hface (by rw [a7, b7])
    · rw [← h2]
      congr 1
      rw [a1, b1]

/-- two stores made with the same ids -/
theorem generateKeys_face {U : Unicode} {now : Nat → Int} {start n : Int} {expire : Option (Outcome Int)} {keepers : List Runes} {inst i1 i2 : Inst}
    {t t1 s s1 : Tape} (h1 : generateKeys U now start n expire keepers inst t = some (.ok (), i1, t1))
    (h2 : generateKeys U now start n expire keepers inst s = some (.ok (), i2, s1))
    (hids : i1.keys.map (fun k => k.id.val) = i2.keys.map (fun k => k.id.val)) : i2 = { i1 with keys := i2.keys } ∧ SameFace i1.keys i2.keys := by
  unfold generateKeys at h1 h2
  split at h1
  · rename_i e he
    rw [he] at h2
    simp only [Option.map_eq_some_iff, Prod.mk.injEq, true_and, Prod.exists] at h1 h2
    obtain ⟨a, b, h1, rfl, rfl⟩ := h1
    obtain ⟨c, d, h2, rfl, rfl⟩ := h2
    exact generateLoop_face (inst := inst) (keys := inst.keys) (List.forall₂_same.2 (fun k _ => ⟨rfl, rfl⟩)) h1 h2 hids
  · simp at h1
  · simp at h1

theorem SameFace.withPads {a b : List Key} (h : SameFace a b) : b = Spec.withPads a (b.map Key.runes) := by
  induction h with
  | nil => rfl
  | cons hx _ ih =>
    unfold Spec.withPads at ih ⊢
    rw [List.map_cons, List.zipWith_cons_cons, ← ih, ← hx.1]

theorem withPads_runes {keys : List Key} {pads : List Runes} (h : pads.length = keys.length) : (withPads keys pads).map Key.runes = pads := by
  unfold withPads
  induction keys generalizing pads with
  | nil => cases pads <;> simp_all
  | cons k ks ih =>
    cases pads with
    | nil => simp at h
    | cons w ws => simp [ih (by simpa using h)]

theorem map_pair_zip (keys : List Key) : keys.map (fun k => (k.id.val, k.runes)) = (keys.map (fun k => k.id.val)).zip (keys.map Key.runes) := by
  induction keys with
  | nil => rfl
  | cons k ks ih => simp only [List.map_cons, List.zip_cons_cons, ih]

/-- what is known about a store filled with GenerateKeys -/
theorem made_facts {U : Unicode} {now : Nat → Int} {start n : Int} {expire : Option (Outcome Int)} {keepers : List Runes} {inst i : Inst} {t t1 : Tape}
    (hg : inst.groupSize ≠ 0) (hempty : inst.keys = []) (h : generateKeys U now start n expire keepers inst t = some (.ok (), i, t1)) :
    i.keys.length = n.toNat ∧ (expire = none ∨ ∃ e, expire = some (.ok e)) ∧ DistinctNames U (i.keys.map (fun k => k.id.val)) ∧
    ∀ k ∈ i.keys, LetterString inst.groupSize k.id.val ∧ LetterString (newKeyLength inst.keyLength inst.groupSize) k.runes := by
  obtain ⟨h1, _⟩ := C24_generate U now start n expire keepers inst i t t1 _ hg h
  obtain ⟨new, nx, e, rfl, hl, _, he, hf, hd⟩ := h1 rfl
  simp only [hempty, List.nil_append] at hd ⊢
  refine ⟨hl, ?_, hd (by simp [DistinctNames]), ?_⟩
  · rcases expire with _ | r
    · exact .inl rfl
    · exact .inr ⟨e, by rw [he r rfl]⟩
  · intro k hk
    have := hf k hk
    refine ⟨⟨this.idLength, this.idLetters⟩, ?_, this.letters⟩
    obtain ⟨q, hq⟩ := this.whole
    have h1 := this.long
    have h2 := this.notTooLong
    unfold newKeyLength
    have : (inst.keyLength + inst.groupSize - 1) / inst.groupSize = q := by
      apply Nat.div_eq_of_lt_le
      · omega
      · rw [Nat.succ_mul]; omega
    rw [this, hq]

end K431
