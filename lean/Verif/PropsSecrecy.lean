import Verif.AirLemmas
import Verif.TapeLemmas
import Mathlib.Data.Set.Card.Arithmetic

/-!
# C72: perfect secrecy of everything that is sent
-/

namespace K431

open Spec

/-- the same key ids and lengths of ciphertext -/
def SameShape : List (Runes × Runes) → List (Runes × Runes) → Prop := List.Forall₂ (fun a b => b.1 = a.1 ∧ b.2.length = a.2.length)

/-- C72: whether messages can be enciphered, with which keys, and the lengths of the ciphertexts, do not depend on the letters of the
keys. -/
theorem C72_shape (U : Unicode) (hU : U.Lawful) (noise : Nat → Rune) (f : Runes) (inst : Inst) (ms : List Msg)
    (hauto : ∀ m ∈ ms, m.keyId.val = []) (hd : Distinguishable U inst.keys) (pads pads' : List Runes) (hp : pads ∈ PadsFor inst.keys)
    (hp' : pads' ∈ PadsFor inst.keys) (sent : List Msg) (h : sendAll U noise f { inst with keys := withPads inst.keys pads } ms = some sent) :
    ∃ sent', sendAll U noise f { inst with keys := withPads inst.keys pads' } ms = some sent' ∧ SameShape (onAir sent) (onAir sent') := by
  obtain ⟨f1, _⟩ := PadsFor.sameFace hp
  obtain ⟨f2, l2⟩ := PadsFor.sameFace hp'
  obtain ⟨parts, _, _, p3, p4⟩ := sendAll_parts hU hauto (hd.congr f1.ids) h
  obtain ⟨sent', h1, h2⟩ := p4 _ (f1.symm.trans f2) l2
  refine ⟨sent', h1, ?_⟩
  unfold SameShape onAir
  rw [List.forall₂_map_left_iff, List.forall₂_map_right_iff]
  refine forall₂_comp ?_ (List.Forall₂.flip p3) h2
  rintro x p y ⟨a1, a2⟩ ⟨b1, b2⟩
  exact ⟨by simp only; rw [a1, b1], by simp only; rw [(cipherChunks_spec _ _ _ a2).1, (cipherChunks_spec _ _ _ b2).1]⟩

/-- C72: For given messages, every sequence of ciphertexts of the right lengths is equally likely: it is the result for
one in 26ⁿ choices of the letters of the keys, where n is the number of letters of ciphertext. -/
theorem C72_secrecy (U : Unicode) (hU : U.Lawful) (noise : Nat → Rune) (f : Runes) (inst : Inst) (ms : List Msg)
    (hauto : ∀ m ∈ ms, m.keyId.val = []) (hd : Distinguishable U inst.keys) (pads : List Runes) (hp : pads ∈ PadsFor inst.keys)
    (sent : List Msg) (h : sendAll U noise f { inst with keys := withPads inst.keys pads } ms = some sent)
    (air : List (Runes × Runes)) (hs : SameShape (onAir sent) air) (hl : ∀ a ∈ air, ∀ c ∈ a.2, IsLetter c) :
    (Explains U noise f inst ms air).ncard * 26 ^ airLength air = (PadsFor inst.keys).ncard := by
  obtain ⟨f1, l1⟩ := PadsFor.sameFace hp
  obtain ⟨parts, p1, p2, p3, p4⟩ := sendAll_parts hU hauto (hd.congr f1.ids) h
  have hpa : List.Forall₂ (fun p a => a.1 = p.1 ∧ a.2.length = totalLength p.2) parts air := by
    unfold SameShape onAir at hs
    rw [List.forall₂_map_left_iff] at hs
    refine forall₂_comp ?_ p3 hs
    rintro p x a ⟨a1, a2⟩ ⟨b1, b2⟩
    exact ⟨by rw [b1, a1], by rw [b2, (cipherChunks_spec _ _ _ a2).1]⟩
  obtain ⟨t1, t2⟩ := totalLength_flatMap hpa
  obtain ⟨ns, n1, _, n3, n4⟩ := needed (keys := inst.keys) (chunks := parts.flatMap Prod.snd) (c := air.flatMap Prod.snd) p1 (by
    intro ch hch
    obtain ⟨p, hpm, hcp⟩ := List.mem_flatMap.1 hch
    obtain ⟨m, _, _, hm⟩ := forall₂_mem_left p3 p hpm
    refine ⟨cipherChunks_enc hm ch hcp, ?_⟩
    obtain ⟨k, hk, hle⟩ := (cipherChunks_spec _ _ _ hm).2.2 ch hcp
    obtain ⟨l, h1, _, h2⟩ := f1.symm.get hk
    exact ⟨l, h1, by rw [h2]; exact hle⟩) (by
    intro c hc
    obtain ⟨a, ha, hca⟩ := List.mem_flatMap.1 hc
    exact hl a ha c hca) (by rw [t1, t2])
  have he : Explains U noise f inst ms air = {pads | pads ∈ PadsFor inst.keys ∧ List.Forall₂ (fun n w => n <+: w) ns pads} := by
    ext q
    unfold Explains
    simp only [Set.mem_ofPred_eq]
    refine and_congr_right (fun hq => ?_)
    rw [← n4 q hq, ← parts_all hpa]
    obtain ⟨f2, l2⟩ := PadsFor.sameFace hq
    obtain ⟨sent', h1, h2⟩ := p4 _ (f1.symm.trans f2) l2
    constructor
    · rintro ⟨s2, h3, rfl⟩
      rw [h1] at h3
      cases h3
      unfold onAir
      rw [List.forall₂_map_right_iff]
      exact List.Forall₂.imp (fun _ _ h => h.2) h2
    · intro h3
      refine ⟨sent', h1, ?_⟩
      unfold onAir
      rw [← List.forall₂_eq_eq_eq, List.forall₂_map_left_iff]
      have h4 : List.Forall₂ (fun p a => a.1 = p.1 ∧ cipherChunks (withPads inst.keys q) p.2 = (.ok (), a.2)) parts air :=
        List.Forall₂.imp (fun _ _ h => ⟨h.1.1, h.2⟩) (forall₂_and hpa h3)
      refine forall₂_comp ?_ (List.Forall₂.flip h2) h4
      rintro x p a ⟨a1, a2⟩ ⟨b1, b2⟩
      rw [a2] at b2
      exact Prod.ext (by rw [b1, a1]) (by simpa using b2)
  rw [he, PadsFor_card, ← fitting_card n1, n3, t2]

/-- C72, for two lists of messages: if they take the same key ids and lengths of ciphertext, then what is on the air says nothing about
which of them was sent. -/
theorem C72_texts (U : Unicode) (hU : U.Lawful) (noise : Nat → Rune) (f : Runes) (inst : Inst) (ms ms' : List Msg)
    (hauto : ∀ m ∈ ms, m.keyId.val = []) (hauto' : ∀ m ∈ ms', m.keyId.val = []) (hd : Distinguishable U inst.keys)
    (pads : List Runes) (hp : pads ∈ PadsFor inst.keys) (sent sent' : List Msg)
    (h : sendAll U noise f { inst with keys := withPads inst.keys pads } ms = some sent)
    (h' : sendAll U noise f { inst with keys := withPads inst.keys pads } ms' = some sent')
    (air : List (Runes × Runes)) (hs : SameShape (onAir sent) air) (hs' : SameShape (onAir sent') air) (hl : ∀ a ∈ air, ∀ c ∈ a.2, IsLetter c) :
    (Explains U noise f inst ms air).ncard = (Explains U noise f inst ms' air).ncard := by
  have h1 := C72_secrecy U hU noise f inst ms hauto hd pads hp sent h air hs hl
  have h2 := C72_secrecy U hU noise f inst ms' hauto' hd pads hp sent' h' air hs' hl
  rw [← h2] at h1
  exact Nat.eq_of_mul_eq_mul_right (Nat.pow_pos (by decide)) h1

/-- non-vacuity: with the two keys of `ex2`, two messages each, with the same shape but different texts -/
example : Distinguishable unicode15 ex2.keys ∧ [lit "QWERTYUIOP", lit "ASDFGHJKLZ"] ∈ PadsFor ex2.keys ∧
    (sendAll unicode15 (fun _ => 0) [] ex2 [exMsg "HEJ", exMsg "DU"]).map onAir = some [(lit "A", lit "CZM"), (lit "B", lit "WN")] ∧
    (sendAll unicode15 (fun _ => 0) [] ex2 [exMsg "DAG", exMsg "JA"]).map onAir = some [(lit "A", lit "GDP"), (lit "B", lit "QH")] := by
  refine ⟨by decide, ?_, by decide +kernel, by decide +kernel⟩
  exact .cons ⟨rfl, by decide⟩ (.cons ⟨rfl, by decide⟩ .nil)

/-- A store is filled with `GenerateKeys`, which makes keys with these ids, and then these messages go on the air like this. -/
def MadeAndSent (U : Unicode) (noise : Nat → Rune) (f : Runes) (now : Nat → Int) (start n : Int) (expire : Option (Outcome Int)) (keepers : List Runes)
    (inst : Inst) (ids : List Runes) (ms : List Msg) (air : List (Runes × Runes)) (t : Tape) : Prop :=
  ∃ inst' t' sent, generateKeys U now start n expire keepers inst t = some (.ok (), inst', t') ∧ inst'.keys.map (fun k => k.id.val) = ids ∧
    sendAll U noise f inst' ms = some sent ∧ onAir sent = air

theorem zip_letters {a b : Nat} {keys : List Key} {pads : List Runes} (hid : ∀ k ∈ keys, LetterString a k.id.val)
    (hlen : ∀ k ∈ keys, k.runes.length = b) (hp : pads ∈ PadsFor keys) :
    ∀ p ∈ (keys.map (fun k => k.id.val)).zip pads, LetterString a p.1 ∧ LetterString b p.2 := by
  unfold PadsFor at hp
  simp only [Set.mem_ofPred_eq] at hp
  induction hp with
  | nil => simp
  | cons h _ ih =>
    intro p hm
    rw [List.map_cons, List.zip_cons_cons, List.mem_cons] at hm
    rcases hm with rfl | hm
    · exact ⟨hid _ (by simp), by rw [← hlen _ (List.mem_cons_self ..)]; exact h⟩
    · exact ih (fun k hk => hid k (by simp [hk])) (fun k hk => hlen k (by simp [hk])) p hm

theorem made_distinguishable {U : Unicode} (hU : U.Lawful) {g b : Nat} {keys : List Key} (h : DistinctNames U (keys.map (fun k => k.id.val)))
    (hl : ∀ k ∈ keys, LetterString g k.id.val ∧ LetterString b k.runes) : Distinguishable U keys := by
  refine WellFormed.distinguishable hU ⟨?_, ?_⟩
  · refine List.Pairwise.imp ?_ h
    rintro a b h rfl
    exact h rfl
  · exact fun k hk => (hl k hk).1.2

theorem own_pads {g b : Nat} {keys : List Key} (hl : ∀ k ∈ keys, LetterString g k.id.val ∧ LetterString b k.runes) :
    keys.map Key.runes ∈ PadsFor keys ∧ withPads keys (keys.map Key.runes) = keys := by
  induction keys with
  | nil => exact ⟨.nil, rfl⟩
  | cons k ks ih =>
    obtain ⟨h1, h2⟩ := ih (fun x hx => hl x (by simp [hx]))
    refine ⟨.cons ⟨rfl, (hl k (by simp)).2.2⟩ h1, ?_⟩
    unfold withPads at h2 ⊢
    rw [List.map_cons, List.zipWith_cons_cons, h2]

/-- the tapes that lead to what is on the air: so many for each choice of letters -/
theorem made_card {U : Unicode} {noise : Nat → Rune} {f : Runes} {now : Nat → Int} {start n : Int} {expire : Option (Outcome Int)} {keepers : List Runes}
    {inst i0 : Inst} {t0 t1 : Tape} (hg : inst.groupSize ≠ 0) (hempty : inst.keys = [])
    (h0 : generateKeys U now start n expire keepers inst t0 = some (.ok (), i0, t1)) (ms : List Msg) (air : List (Runes × Runes)) (L : Nat) :
    (Tapes L (MadeAndSent U noise f now start n expire keepers inst (i0.keys.map (fun k => k.id.val)) ms air)).ncard =
      (Explains U noise f i0 ms air).ncard *
        (Tapes L (GenerateGives U now start n expire keepers inst (i0.keys.map (fun k => (k.id.val, k.runes))))).ncard := by
  obtain ⟨f1, f2, f3, f4⟩ := made_facts hg hempty h0
  have hpl : ∀ pads ∈ PadsFor i0.keys, pads.length = i0.keys.length := fun pads hp => (List.Forall₂.length_eq hp).symm
  have he : Tapes L (MadeAndSent U noise f now start n expire keepers inst (i0.keys.map (fun k => k.id.val)) ms air) =
      ⋃ pads ∈ Explains U noise f i0 ms air, Tapes L (GenerateGives U now start n expire keepers inst ((i0.keys.map (fun k => k.id.val)).zip pads)) := by
    ext t
    simp only [Set.mem_iUnion, Tapes, Set.mem_ofPred_eq, exists_prop]
    constructor
    · rintro ⟨hw, hl, i, t', sent, h1, h2, h3, h4⟩
      obtain ⟨g1, g2⟩ := generateKeys_face h0 h1 h2.symm
      obtain ⟨_, _, _, k4⟩ := made_facts hg hempty h1
      have hp : i.keys.map Key.runes ∈ PadsFor i0.keys := by
        unfold PadsFor
        simp only [Set.mem_ofPred_eq]
        rw [List.forall₂_map_right_iff]
        have : ∀ {a b : List Key}, SameFace a b → (∀ k ∈ b, ∀ c ∈ k.runes, IsLetter c) → List.Forall₂ (fun k l => LetterString k.runes.length l.runes) a b := by
          intro a b h
          induction h with
          | nil => intro _; exact .nil
          | cons hx _ ih => intro hb; exact .cons ⟨hx.2, hb _ (by simp)⟩ (ih (fun k hk => hb k (by simp [hk])))
        exact this g2 (fun k hk => (k4 k hk).2.2)
      refine ⟨i.keys.map Key.runes, ⟨hp, sent, ?_, h4⟩, hw, hl, i, t', h1, ?_⟩
      · rw [← g2.withPads, ← g1]; exact h3
      · rw [hempty, List.length_nil, List.drop_zero, map_pair_zip, h2]
    · rintro ⟨pads, ⟨hp, sent, h3, h4⟩, hw, hl, i, t', h1, h2⟩
      rw [hempty, List.length_nil, List.drop_zero, map_pair_zip] at h2
      have hplen := hpl pads hp
      have e1 : i.keys.map (fun k => k.id.val) = i0.keys.map (fun k => k.id.val) := by
        have := congrArg (List.map Prod.fst) h2
        rwa [List.map_fst_zip (by simp), List.map_fst_zip (by simp [hplen])] at this
      have e2 : i.keys.map Key.runes = pads := by
        have := congrArg (List.map Prod.snd) h2
        rwa [List.map_snd_zip (by simp), List.map_snd_zip (by simp [hplen])] at this
      obtain ⟨g1, g2⟩ := generateKeys_face h0 h1 e1.symm
      refine ⟨hw, hl, i, t', sent, h1, e1, ?_, h4⟩
      rw [g1, g2.withPads, e2]; exact h3
  have hfin : (Explains U noise f i0 ms air).Finite := by
    refine Set.Finite.subset (s := PadsFor i0.keys) ?_ (fun _ h => h.1)
    apply Set.finite_of_ncard_pos
    rw [PadsFor_card]; exact Nat.pow_pos (by decide)
  rw [he, Set.Finite.ncard_biUnion hfin (fun _ _ => tapes_finite _ _)]
  · rw [finsum_mem_eq_finite_toFinset_sum _ hfin, Set.ncard_eq_toFinset_card _ hfin]
    rw [Finset.sum_congr rfl (g := fun _ => (Tapes L (GenerateGives U now start n expire keepers inst (i0.keys.map (fun k => (k.id.val, k.runes))))).ncard)]
    · rw [Finset.sum_const, smul_eq_mul]
    · intro pads hp
      rw [Set.Finite.mem_toFinset] at hp
      have hplen := hpl pads hp.1
      rw [map_pair_zip]
      have key : ∀ (e : Int), (expire = none ∨ expire = some (.ok e)) →
          (Tapes L (GenerateGives U now start n expire keepers inst ((i0.keys.map (fun k => k.id.val)).zip pads))).ncard =
            (Tapes L (GenerateGives U now start n expire keepers inst ((i0.keys.map (fun k => k.id.val)).zip (i0.keys.map Key.runes)))).ncard := by
        intro e he
        refine C45_keys U now start e n expire he keepers inst hg L _ _ ?_ ?_ ?_ ?_ ?_ ?_
        · simp [hplen, f1]
        · rw [List.map_fst_zip (by simp [hplen]), List.map_fst_zip (by simp)]
        · exact zip_letters (fun k hk => (f4 k hk).1) (fun k hk => (f4 k hk).2.1) hp.1
        · rw [← map_pair_zip]
          intro p hpm
          obtain ⟨k, hk, rfl⟩ := List.mem_map.1 hpm
          exact f4 k hk
        · intro p _
          simp [hempty, InFold]
        · rw [List.map_fst_zip (by simp [hplen])]; exact f3
      rcases f2 with f2 | ⟨e, f2⟩
      · exact key 0 (.inl f2)
      · exact key e (.inr f2)
  · intro p hp q hq hne
    rw [Function.onFun, Set.disjoint_left]
    rintro t ⟨_, _, i, t', h1, h2⟩ ⟨_, _, i', t'', h3, h4⟩
    rw [h1] at h3
    simp only [Option.some.injEq, Prod.mk.injEq, true_and] at h3
    obtain ⟨rfl, rfl⟩ := h3
    rw [h2] at h4
    have := congrArg (List.map Prod.snd) h4
    rw [List.map_snd_zip (by simp [hpl p hp.1]), List.map_snd_zip (by simp [hpl q hq.1])] at this
    exact hne this

/-- C72 for a new store: of the random tapes, equally many lead to each possible traffic of the same length, for whatever messages. -/
theorem C72_tapes (U : Unicode) (hU : U.Lawful) (noise : Nat → Rune) (f : Runes) (now : Nat → Int) (start n : Int) (expire : Option (Outcome Int))
    (keepers : List Runes) (inst : Inst) (hg : inst.groupSize ≠ 0) (hempty : inst.keys = []) (ids : List Runes) (ms ms' : List Msg)
    (hauto : ∀ m ∈ ms, m.keyId.val = []) (hauto' : ∀ m ∈ ms', m.keyId.val = []) (t t' : Tape) (air0 air0' air air' : List (Runes × Runes))
    (h : MadeAndSent U noise f now start n expire keepers inst ids ms air0 t) (h' : MadeAndSent U noise f now start n expire keepers inst ids ms' air0' t')
    (hs : SameShape air0 air) (hs' : SameShape air0' air') (hl : ∀ a ∈ air, ∀ c ∈ a.2, IsLetter c) (hl' : ∀ a ∈ air', ∀ c ∈ a.2, IsLetter c)
    (hlen : airLength air = airLength air') (L : Nat) :
    (Tapes L (MadeAndSent U noise f now start n expire keepers inst ids ms air)).ncard =
      (Tapes L (MadeAndSent U noise f now start n expire keepers inst ids ms' air')).ncard := by
  obtain ⟨i0, t1, sent, g1, g2, g3, g4⟩ := h
  obtain ⟨i1, t2, sent1, k1, k2, k3, k4⟩ := h'
  obtain ⟨_, _, f3, f4⟩ := made_facts hg hempty g1
  obtain ⟨_, _, _, f4'⟩ := made_facts hg hempty k1
  obtain ⟨e1, e2⟩ := generateKeys_face g1 k1 (g2.trans k2.symm)
  have hd := made_distinguishable hU f3 f4
  obtain ⟨o1, o2⟩ := own_pads f4
  have hp1 : i1.keys.map Key.runes ∈ PadsFor i0.keys := by
    have := (own_pads f4').1
    unfold PadsFor at this ⊢
    simp only [Set.mem_ofPred_eq] at this ⊢
    rw [List.forall₂_map_right_iff] at this ⊢
    exact forall₂_comp (fun a b c h1 h2 => by rw [← h1.2]; exact h2) e2 this
  subst g2
  rw [made_card hg hempty g1, made_card hg hempty g1]
  congr 1
  have c1 := C72_secrecy U hU noise f i0 ms hauto hd _ o1 sent (by rw [o2]; exact g3) air (by rw [g4]; exact hs) hl
  have c2 := C72_secrecy U hU noise f i0 ms' hauto' hd _ hp1 sent1 (by rw [← e2.withPads, ← e1]; exact k3) air' (by rw [k4]; exact hs') hl'
  rw [← c2, hlen] at c1
  exact Nat.eq_of_mul_eq_mul_right (Nat.pow_pos (by decide)) c1

/-- eleven words of the random source -/
def exWords : Tape := [0, 16, 22, 4, 17, 19, 24, 20, 8, 14, 15].map (fun x => x * 2 ^ 32)

/-- non-vacuity: a store with one new key sends HEJ -/
theorem exMade : (generateKeys unicode15 (fun _ => 0) 0 1 none [] (exInst []) exWords).map
    (fun r => (r.1 == .ok (), r.2.1.keys.map (fun k => k.id.val), (sendAll unicode15 (fun _ => 0) [] r.2.1 [exMsg "HEJ"]).map onAir)) =
      some (true, [lit "A"], some [(lit "A", lit "CZM")]) := by
  set_option synthInstance.maxSize 512 in decide +kernel

theorem exMadeAndSent : MadeAndSent unicode15 (fun _ => 0) [] (fun _ => 0) 0 1 none [] (exInst []) [lit "A"] [exMsg "HEJ"] [(lit "A", lit "CZM")] exWords := by
  have h1 := exMade
  rcases h : generateKeys unicode15 (fun _ => 0) 0 1 none [] (exInst []) exWords with _ | ⟨r, i, t⟩
  · rw [h] at h1; exact absurd h1 (by simp)
  · rw [h] at h1
    simp only [Option.map_some, Option.some.injEq, Prod.mk.injEq, Option.map_eq_some_iff, beq_iff_eq] at h1
    obtain ⟨rfl, h2, sent, h3, h4⟩ := h1
    exact ⟨i, t, sent, h, h2, h3, h4⟩

/-- the conclusion speaks about something: there is such a tape -/
example : (Tapes 11 (MadeAndSent unicode15 (fun _ => 0) [] (fun _ => 0) 0 1 none [] (exInst []) [lit "A"] [exMsg "HEJ"] [(lit "A", lit "CZM")])).ncard ≠ 0 :=
  Set.ncard_ne_zero_of_mem (a := exWords) ⟨by unfold Words; decide, rfl, exMadeAndSent⟩ (tapes_finite _ _)

end K431
