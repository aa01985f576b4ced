import Verif.PadLemmas

/-! # Helper lemmas: enciphering a list of messages -/

namespace K431
open Spec

theorem encipher_T {U : Unicode} {noise : Nat → Rune} {f : Runes} {inst inst' : Inst} {m m' : Msg} (h : encipher U noise f inst m = (.ok (), inst', m')) :
    ∃ chunks, encipherT U noise f inst m = (.ok chunks, inst', m') := by
  unfold encipher at h
  rcases h' : encipherT U noise f inst m with ⟨c | e | _, a, b⟩ <;> rw [h'] at h <;> simp at h
  exact ⟨c, by rw [h.1, h.2]⟩

theorem encipher_of_T {U : Unicode} {noise : Nat → Rune} {f : Runes} {inst inst' : Inst} {m m' : Msg} {chunks : List Chunk}
    (h : encipherT U noise f inst m = (.ok chunks, inst', m')) : encipher U noise f inst m = (.ok (), inst', m') := by
  unfold encipher; rw [h]

theorem sendAll_cons {U : Unicode} {noise : Nat → Rune} {f : Runes} {inst : Inst} {m : Msg} {ms sent : List Msg} (h : sendAll U noise f inst (m :: ms) = some sent) :
    ∃ inst' m' rest, encipher U noise f inst m = (.ok (), inst', m') ∧ sendAll U noise f inst' ms = some rest ∧ sent = m' :: rest := by
  unfold sendAll at h
  rcases he : encipher U noise f inst m with ⟨u | e | _, inst', m'⟩
  · rw [he] at h
    simp only [Option.map_eq_some_iff] at h
    obtain ⟨rest, h1, h2⟩ := h
    exact ⟨inst', m', rest, rfl, h1, h2.symm⟩
  · rw [he] at h; cases h
  · rw [he] at h; cases h

theorem SameFace.ids {a b : List Key} (h : SameFace a b) : a.map (fun k => k.id.val) = b.map (fun k => k.id.val) := by
  induction h with
  | nil => rfl
  | cons hx _ ih =>
    rw [List.map_cons, List.map_cons, ih, hx.1]

/-- The parts into which the messages are divided do not depend on the letters of the keys; no key is used for two parts. -/
theorem sendAll_parts {U : Unicode} (hU : U.Lawful) {noise : Nat → Rune} {f : Runes} : ∀ {ms : List Msg} {inst : Inst} {sent : List Msg},
    (∀ m ∈ ms, m.keyId.val = []) → Distinguishable U inst.keys → sendAll U noise f inst ms = some sent →
    ∃ parts : List (Runes × List Chunk), (keysOf (parts.flatMap Prod.snd)).Nodup ∧
      (∀ j ∈ keysOf (parts.flatMap Prod.snd), ∃ k, inst.keys[j]? = some k ∧ k.used = false) ∧
      List.Forall₂ (fun p m => m.keyId.val = p.1 ∧ cipherChunks inst.keys p.2 = (.ok (), m.cipherText)) parts sent ∧
      ∀ keys, SameFace inst.keys keys → (∀ k ∈ keys, ∀ c ∈ k.runes, IsLetter c) →
        ∃ sent', sendAll U noise f { inst with keys := keys } ms = some sent' ∧
          List.Forall₂ (fun p m => m.keyId.val = p.1 ∧ cipherChunks keys p.2 = (.ok (), m.cipherText)) parts sent' := by
  intro ms
  induction ms with
  | nil =>
    intro inst sent _ _ h
    simp only [sendAll, Option.some.injEq] at h
    subst h
    exact ⟨[], by simp [keysOf], by simp [keysOf], .nil, fun keys _ _ => ⟨[], rfl, .nil⟩⟩
  | cons m ms ih =>
    intro inst sent hauto hd h
    obtain ⟨inst', m', rest, he, hrest, rfl⟩ := sendAll_cons h
    obtain ⟨chunks, hT⟩ := encipher_T he
    obtain ⟨inst1, m1, i, s, out, e⟩ := encipherT_ok hT
    obtain ⟨_, f2, f3⟩ := e.auto_flags hU (hauto m (by simp)) hd
    obtain ⟨c1, c2⟩ := C15_partial U hU noise f inst inst' m m' chunks hd (hauto m (by simp)) hT
    have hsm : SameMat inst'.keys inst.keys := by rw [e.hinst]; exact e.sameMat
    obtain ⟨parts, p1, p2, p3, p4⟩ := ih (fun x hx => hauto x (by simp [hx])) (hd.congr hsm.ids.symm) hrest
    have hk : keysOf (((m'.keyId.val, chunks) :: parts).flatMap Prod.snd) = keysOf chunks ++ keysOf (parts.flatMap Prod.snd) := by
      simp [keysOf]
    have back : ∀ j ∈ keysOf (parts.flatMap Prod.snd), j ∉ keysOf chunks ∧ ∃ k, inst.keys[j]? = some k ∧ k.used = false := by
      intro j hj
      obtain ⟨k', hk', hu⟩ := p2 j hj
      obtain ⟨k, hk, hmk⟩ := hsm.get hk'
      have := c2 j k hk
      rw [hk'] at this
      cases this
      simp only [Bool.or_eq_false_iff, decide_eq_false_iff_not] at hu
      exact ⟨hu.2, k, hk, hu.1⟩
    refine ⟨(m'.keyId.val, chunks) :: parts, ?_, ?_, .cons ⟨rfl, ?_⟩ ?_, ?_⟩
    · rw [hk]
      exact List.nodup_append.2 ⟨f2, p1, fun a ha b hb hab => (back b hb).1 (hab ▸ ha)⟩
    · intro j hj
      rw [hk] at hj
      rcases List.mem_append.1 hj with hj | hj
      · obtain ⟨k, h1, h2⟩ := f3 j hj
        exact ⟨k, h1, h2.1⟩
      · exact (back j hj).2
    · rw [← cipherChunks_sameMat e.sameMat, e.ciphered, e.hm]
    · exact List.Forall₂.imp (fun p m h => ⟨h.1, by rw [← cipherChunks_sameMat hsm]; exact h.2⟩) p3
    · intro keys hf hl
      obtain ⟨keys', c, h1, h2, h3⟩ := encipherT_face hf hl hT
      have hsm2 : SameMat keys' keys := by
        obtain ⟨inst2, m2, i2, s2, out2, e2⟩ := encipherT_ok h1
        have h4 := e2.sameMat
        have h5 := e2.hinst
        have h6 : keys' = s2.keys := congrArg Inst.keys h5
        rw [h6]; exact h4
      obtain ⟨sent', q1, q2⟩ := p4 keys' h2 (by
        intro k hk c hc
        obtain ⟨j, hj⟩ := List.mem_iff_getElem?.1 hk
        obtain ⟨l, l1, l2⟩ := hsm2.get hj
        exact hl l (List.mem_of_getElem? l1) c (by rw [Key.mat_runes l2]; exact hc))
      refine ⟨{ m' with cipherText := c } :: sent', ?_, .cons ⟨rfl, h3⟩ ?_⟩
      · unfold sendAll
        rw [encipher_of_T h1]
        simp only [q1, Option.map_some]
      · exact List.Forall₂.imp (fun p m h => ⟨h.1, by rw [← cipherChunks_sameMat hsm2]; exact h.2⟩) q2

/-- all messages together -/
theorem parts_all {keys : List Key} : ∀ {parts : List (Runes × List Chunk)} {air : List (Runes × Runes)},
    List.Forall₂ (fun p a => a.1 = p.1 ∧ a.2.length = totalLength p.2) parts air →
    (List.Forall₂ (fun p a => cipherChunks keys p.2 = (.ok (), a.2)) parts air ↔
      cipherChunks keys (parts.flatMap Prod.snd) = (.ok (), air.flatMap Prod.snd)) := by
  intro parts air h
  induction h with
  | nil => simp [cipherChunks]
  | @cons p a ps as hx _ ih =>
    rw [List.forall₂_cons, ih, List.flatMap_cons, List.flatMap_cons, cipherChunks_append]
    constructor
    · rintro ⟨h1, h2⟩; exact ⟨_, _, h1, h2, rfl⟩
    · rintro ⟨o1, o2, h1, h2, h3⟩
      have hl := (cipherChunks_spec _ _ _ h1).1
      have := List.append_inj h3 (by rw [hx.2, hl])
      rw [this.1, this.2]
      exact ⟨h1, h2⟩

theorem totalLength_flatMap {parts : List (Runes × List Chunk)} {air : List (Runes × Runes)}
    (h : List.Forall₂ (fun p a => a.1 = p.1 ∧ a.2.length = totalLength p.2) parts air) :
    totalLength (parts.flatMap Prod.snd) = airLength air ∧ (air.flatMap Prod.snd).length = airLength air := by
  have happ : ∀ a b : List Chunk, totalLength (a ++ b) = totalLength a + totalLength b := by
    intro a b
    induction a with
    | nil => simp [totalLength]
    | cons x xs ih =>
      have e1 : totalLength (x :: xs ++ b) = x.enc.length + totalLength (xs ++ b) := rfl
      have e2 : totalLength (x :: xs) = x.enc.length + totalLength xs := rfl
      omega
  induction h with
  | nil => exact ⟨rfl, rfl⟩
  | @cons p a ps as hx _ ih =>
    have e : airLength (a :: as) = a.2.length + airLength as := by simp [airLength]
    rw [List.flatMap_cons, List.flatMap_cons, happ, List.length_append, ih.1, ih.2, e, hx.2]
    exact ⟨rfl, rfl⟩

theorem PadsFor.sameFace {keys : List Key} {pads : List Runes} (h : pads ∈ PadsFor keys) :
    SameFace keys (withPads keys pads) ∧ ∀ k ∈ withPads keys pads, ∀ c ∈ k.runes, IsLetter c := by
  unfold PadsFor at h
  simp only [Set.mem_ofPred_eq] at h
  induction h with
  | nil => exact ⟨.nil, by simp [withPads]⟩
  | cons hx _ ih =>
    refine ⟨.cons ⟨rfl, hx.1⟩ ih.1, ?_⟩
    intro k hk
    rcases List.mem_cons.1 hk with rfl | hk
    · exact hx.2
    · exact ih.2 k hk

theorem forall₂_comp {α β γ : Type} {R : α → β → Prop} {S : β → γ → Prop} {T : α → γ → Prop} (hT : ∀ x y z, R x y → S y z → T x z) :
    ∀ {a : List α} {b : List β} {c : List γ}, List.Forall₂ R a b → List.Forall₂ S b c → List.Forall₂ T a c := by
  intro a b c h
  induction h generalizing c with
  | nil => intro h2; cases h2; exact .nil
  | cons hx _ ih => intro h2; cases h2 with
    | cons hy hs => exact .cons (hT _ _ _ hx hy) (ih hs)

theorem SameFace.symm {a b : List Key} (h : SameFace a b) : SameFace b a := by
  induction h with
  | nil => exact .nil
  | cons hx _ ih => exact .cons ⟨by rw [hx.1], hx.2.symm⟩ ih

theorem SameFace.trans {a b c : List Key} (h : SameFace a b) (h' : SameFace b c) : SameFace a c :=
  forall₂_comp (fun x y z h1 h2 => ⟨by rw [h2.1, h1.1], by rw [h2.2, h1.2]⟩) h h'

theorem forall₂_and {α β : Type} {R S : α → β → Prop} : ∀ {a : List α} {b : List β}, List.Forall₂ R a b → List.Forall₂ S a b →
    List.Forall₂ (fun x y => R x y ∧ S x y) a b := by
  intro a b h
  induction h with
  | nil => intro _; exact .nil
  | cons hx _ ih => intro h2; cases h2 with
    | cons hy hs => exact .cons ⟨hx, hy⟩ (ih hs)

theorem forall₂_mem_left {α β : Type} {R : α → β → Prop} {a : List α} {b : List β} (h : List.Forall₂ R a b) : ∀ x ∈ a, ∃ y ∈ b, R x y := by
  induction h with
  | nil => simp
  | cons hx _ ih =>
    intro x h
    rcases List.mem_cons.1 h with rfl | h
    · exact ⟨_, by simp, hx⟩
    · obtain ⟨y, h1, h2⟩ := ih x h
      exact ⟨y, by simp [h1], h2⟩

end K431
