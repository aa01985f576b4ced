import Verif.SpecSame
import Verif.DecLemmas
import Verif.EncLemmas
import Verif.PropsCipher

/-! # Helper lemmas: inputs that are treated alike -/

namespace K431
open Spec

/-! ## Spacing and letter case -/

theorem upper_letter_plain {U : Unicode} (hU : U.Lawful) {c : Rune} (h : IsLetter (U.toUpper c)) : (U.isSpace c || c == 61) = false := by
  have h1 : U.isSpace c = false := by rw [← hU.isSpace_toUpper]; exact isSpace_letter hU h
  have h2 : c ≠ 61 := by
    rintro rfl
    have h3 := hU.preimage 61 (List.mem_append_left _ (letter_mem_alphabet _ h))
    revert h3
    decide
  simp [h1, h2]

theorem filterText_respaced {U : Unicode} (hU : U.Lawful) {a b : Runes} (h : Respaced U a b) : filterText U a = filterText U b := by
  have hb : ∀ {c : Rune}, U.isSpace c = true ∨ c = 61 → (U.isSpace c || c == 61) = true := by
    rintro c (h | rfl)
    · simp [h]
    · simp
  induction h with
  | nil => rfl
  | same c _ ih => simp only [filterText, ih]
  | letter h1 h2 _ ih =>
    simp only [filterText, ih, h2]
    rw [upper_letter_plain hU h1, upper_letter_plain hU (h2 ▸ h1)]
  | drop h1 _ ih => simp only [filterText, hb h1, if_true, ih]
  | put h1 _ ih => simp only [filterText, hb h1, if_true, ih]

theorem withId_text (f : Runes) (m : Msg) (b : Runes) : withId f { m with plainText := b } = { withId f m with plainText := b } := by
  unfold withId; split <;> rfl

/-- `Decipher` does not look at the text that is there. -/
theorem decipher_text (U : Unicode) (f : Runes) (inst : Inst) (m : Msg) (b : Runes) :
    (decipher U f inst { m with plainText := b }).1 = (decipher U f inst m).1 ∧
    (decipher U f inst { m with plainText := b }).2.1 = (decipher U f inst m).2.1 ∧
    (∀ x, { (decipher U f inst { m with plainText := b }).2.2 with plainText := x } = { (decipher U f inst m).2.2 with plainText := x }) ∧
    (∀ x, (decipher U f inst m).1 = .ok x → (decipher U f inst { m with plainText := b }).2.2 = (decipher U f inst m).2.2) := by
  unfold decipher
  simp only [withId_text]
  repeat' split
  all_goals simp

theorem withId_keyId (f : Runes) (m : Msg) (s : Sl) : withId f { m with keyId := s } = { withId f m with keyId := s } := by
  unfold withId; split <;> rfl

/-- `Decipher` does not look at where the key id lies in memory. -/
theorem decipher_keyPlace (U : Unicode) (f : Runes) (inst : Inst) (m : Msg) (a a' : Nat) (v : Runes) :
    (decipher U f inst { m with keyId := ⟨a', v⟩ }).1 = (decipher U f inst { m with keyId := ⟨a, v⟩ }).1 ∧
    (decipher U f inst { m with keyId := ⟨a', v⟩ }).2.2 = { (decipher U f inst { m with keyId := ⟨a, v⟩ }).2.2 with keyId := ⟨a', v⟩ } := by
  unfold decipher
  simp only [withId_keyId]
  repeat' split
  all_goals simp

theorem decipher_keeps_keyId {U : Unicode} {f : Runes} {inst inst' : Inst} {m m' : Msg} {o : Outcome Unit}
    (h : decipher U f inst m = (o, inst', m')) : m'.keyId = m.keyId := by
  have hw : (withId f m).keyId = m.keyId := by unfold withId; split <;> rfl
  unfold decipher at h
  simp only at h
  repeat' split at h
  all_goals
    simp only [Prod.mk.injEq] at h
    obtain ⟨_, _, rfl⟩ := h
    exact hw

/-! ## The arrangement of the keys -/

/-- what `Decipher` has done so far, with two stores -/
structure DAlike (keys keys' : List Key) (d d' : DState) : Prop where
  letters : ∃ k k', keys[d.key]? = some k ∧ keys'[d'.key]? = some k' ∧ k.runes = k'.runes
  ki : d.ki = d'.ki
  nextKey : d.nextKey = d'.nextKey
  st : d.st = d'.st
  plain : d.plain = d'.plain

theorem getKey_same {U : Unicode} {keys keys' : List Key} (hw : WellFormed keys) (hw' : WellFormed keys') (hs : SamePads keys keys')
    (id : Runes) : (getKey U keys id = none ∧ getKey U keys' id = none) ∨
    ∃ i j k k', getKey U keys id = some i ∧ getKey U keys' id = some j ∧ keys[i]? = some k ∧ keys'[j]? = some k' ∧
      k.id.val = k'.id.val ∧ k.runes = k'.runes := by
  have half : ∀ {ks ks' : List Key}, WellFormed ks → WellFormed ks' → SamePads ks ks' → ∀ {i}, getKey U ks id = some i → getKey U ks' id ≠ none := by
    intro ks ks' _ _ hs i hi hn
    obtain ⟨k, h1, h2, -⟩ := getKey_some hi
    obtain ⟨k', h3, h4, -⟩ := (hs k.id.val k.runes).1 ⟨k, List.mem_of_getElem? h1, rfl, rfl⟩
    exact getKey_none hn k' h3 (by rw [h4]; exact h2)
  rcases h1 : getKey U keys id with _ | i
  · rcases h2 : getKey U keys' id with _ | j
    · exact .inl ⟨rfl, rfl⟩
    · exact absurd h1 (half hw' hw (fun a b => (hs a b).symm) h2)
  · rcases h2 : getKey U keys' id with _ | j
    · exact absurd h2 (half hw hw' hs h1)
    · obtain ⟨k, a1, a2, -⟩ := getKey_some h1
      obtain ⟨k', b1, b2, -⟩ := getKey_some h2
      have hk := List.mem_of_getElem? a1
      have hk' := List.mem_of_getElem? b1
      have e : k.id.val = k'.id.val := by
        have := a2.trans b2.symm
        rwa [goStr_letters (hw.letters k hk), goStr_letters (hw'.letters k' hk')] at this
      obtain ⟨k2, c1, c2, c3⟩ := (hs k.id.val k.runes).1 ⟨k, hk, rfl, rfl⟩
      have : k2 = k' := List.inj_on_of_nodup_map hw'.distinct c1 hk' (by rw [c2, e])
      subst this
      exact .inr ⟨i, j, k, k2, rfl, rfl, a1, b1, e, c3.symm⟩

theorem decLoop_same {U : Unicode} {g : Nat} {keys keys' : List Key} (hw : WellFormed keys) (hw' : WellFormed keys') (hs : SamePads keys keys') :
    ∀ (cs : Runes) (d d' : DState), DAlike keys keys' d d' →
      (decLoop U g keys cs d).2 = (decLoop U g keys' cs d').2 ∧
      (((∃ x, (decLoop U g keys cs d).1 = .ok x) ∧ ∃ x, (decLoop U g keys' cs d').1 = .ok x) ∨
       ((∃ e, (decLoop U g keys cs d).1 = .err e ∧ (decLoop U g keys' cs d').1 = .err e)) ∨
       ((decLoop U g keys cs d).1 = .panic ∧ (decLoop U g keys' cs d').1 = .panic)) := by
  intro cs
  induction cs with
  | nil => intro d d' h; exact ⟨h.plain, .inl ⟨⟨d, rfl⟩, ⟨d', rfl⟩⟩⟩
  | cons c cs ih =>
    intro d d' h
    obtain ⟨⟨k, k', h1, h2, h3⟩, e1, e2, e3, e4⟩ := h
    have step : (∃ x x', decStep U g keys d c = .ok x ∧ decStep U g keys' d' c = .ok x' ∧ DAlike keys keys' x x') ∨
        (∃ e, decStep U g keys d c = .err e ∧ decStep U g keys' d' c = .err e) ∨
        (decStep U g keys d c = .panic ∧ decStep U g keys' d' c = .panic) := by
      simp only [decStep, h1, h2, ← e1, ← e2, ← e3, ← e4, ← h3]
      by_cases hk : d.ki ≥ k.runes.length
      · rw [if_pos hk, if_pos hk]; exact .inr (.inl ⟨_, rfl, rfl⟩)
      rw [if_neg hk, if_neg hk]
      rcases k.runes[d.ki]? with _ | kr
      · exact .inr (.inr ⟨rfl, rfl⟩)
      simp only
      rcases trigraph kr c with e | e | _
      · simp only
        rcases decodeCharacter U d.st e d.plain with ⟨st, plain⟩ | x | _
        · simp only
          by_cases hc : st.keyChange = true
          · rw [if_pos hc, if_pos hc]
            by_cases hl : (d.nextKey ++ [e]).length ≥ g
            · rw [if_pos hl, if_pos hl]
              rcases getKey_same (U := U) hw hw' hs (d.nextKey ++ [e]) with ⟨n1, n2⟩ | ⟨i, j, x, x', s1, s2, s3, s4, -, s5⟩
              · rw [n1, n2]; exact .inr (.inl ⟨_, rfl, rfl⟩)
              · rw [s1, s2]
                exact .inl ⟨_, _, rfl, rfl, ⟨⟨x, x', s3, s4, s5⟩, rfl, rfl, rfl, rfl⟩⟩
            · rw [if_neg hl, if_neg hl]
              exact .inl ⟨_, _, rfl, rfl, ⟨⟨k, k', h1, h2, h3⟩, rfl, rfl, rfl, rfl⟩⟩
          · rw [if_neg hc, if_neg hc]
            exact .inl ⟨_, _, rfl, rfl, ⟨⟨k, k', h1, h2, h3⟩, rfl, rfl, rfl, rfl⟩⟩
        · exact .inr (.inl ⟨_, rfl, rfl⟩)
        · exact .inr (.inr ⟨rfl, rfl⟩)
      · exact .inr (.inl ⟨_, rfl, rfl⟩)
      · exact .inr (.inr ⟨rfl, rfl⟩)
    simp only [decLoop]
    rcases step with ⟨x, x', s1, s2, s3⟩ | ⟨e, s1, s2⟩ | ⟨s1, s2⟩
    · rw [s1, s2]; exact ih x x' s3
    · rw [s1, s2]; exact ⟨e4, .inr (.inl ⟨e, rfl, rfl⟩)⟩
    · rw [s1, s2]; exact ⟨e4, .inr (.inr ⟨rfl, rfl⟩)⟩

theorem decipher_same {U : Unicode} {f : Runes} {inst inst' : Inst} (hg : inst.groupSize = inst'.groupSize) (hw : WellFormed inst.keys)
    (hw' : WellFormed inst'.keys) (hs : SamePads inst.keys inst'.keys) (m : Msg) :
    (decipher U f inst m).1 = (decipher U f inst' m).1 ∧ (decipher U f inst m).2.2 = (decipher U f inst' m).2.2 := by
  unfold decipher
  simp only [← hg]
  by_cases c1 : (withId f m).keyId.val.length ≠ inst.groupSize
  · rw [if_pos c1, if_pos c1]; exact ⟨rfl, rfl⟩
  rw [if_neg c1, if_neg c1]
  by_cases c2 : (withId f m).cipherText.length < inst.groupSize
  · rw [if_pos c2, if_pos c2]; exact ⟨rfl, rfl⟩
  rw [if_neg c2, if_neg c2]
  rcases getKey_same (U := U) hw hw' hs (withId f m).keyId.val with ⟨n1, n2⟩ | ⟨i, j, k, k', s1, s2, s3, s4, -, s5⟩
  · rw [n1, n2]; exact ⟨rfl, rfl⟩
  rw [s1, s2]
  simp only
  obtain ⟨l1, l2⟩ := decLoop_same (U := U) (g := inst.groupSize) hw hw' hs (withId f m).cipherText ⟨i, 0, [], newState, [i], []⟩
    ⟨j, 0, [], newState, [j], []⟩ ⟨⟨k, k', s3, s4, s5⟩, rfl, rfl, rfl, rfl⟩
  rcases h1 : decLoop U inst.groupSize inst.keys (withId f m).cipherText ⟨i, 0, [], newState, [i], []⟩ with ⟨o, p⟩
  rcases h2 : decLoop U inst.groupSize inst'.keys (withId f m).cipherText ⟨j, 0, [], newState, [j], []⟩ with ⟨o', p'⟩
  rw [h1, h2] at l1 l2
  simp only at l1 l2
  subst l1
  rcases l2 with ⟨⟨x, rfl⟩, ⟨x', rfl⟩⟩ | ⟨e, rfl, rfl⟩ | ⟨rfl, rfl⟩ <;> exact ⟨rfl, rfl⟩

/-! ## The recipients -/

theorem findKey_same {U : Unicode} {g : Nat} {rs rs' : List Runes} (h : ∀ r, r ∈ rs ↔ r ∈ rs') (keys : List Key) :
    findKey U g keys rs = findKey U g keys rs' := by
  have hnil : rs = [] ↔ rs' = [] := by
    constructor
    · rintro rfl
      exact List.eq_nil_iff_forall_not_mem.2 (fun r hr => by simpa using (h r).2 hr)
    · rintro rfl
      exact List.eq_nil_iff_forall_not_mem.2 (fun r hr => by simpa using (h r).1 hr)
  have hsel : ∀ k, Selectable g rs k ↔ Selectable g rs' k := by
    intro k
    unfold Selectable KeptBy
    by_cases hn : rs = []
    · rw [if_pos hn, if_pos (hnil.1 hn)]
    · rw [if_neg hn, if_neg (fun e => hn (hnil.2 e))]
      simp only [h]
  rcases h1 : findKey U g keys rs' with _ | i
  · rw [(C18_key_selection U g keys rs).2]
    intro k hk
    rw [hsel]
    exact (C18_key_selection U g keys rs').2.1 h1 k hk
  · rw [(C18_key_selection U g keys rs).1]
    simp only [hsel]
    exact ((C18_key_selection U g keys rs').1 i).1 h1

theorem encLoop_recipients {U : Unicode} {g : Nat} {rs rs' : List Runes} (h : ∀ keys, findKey U g keys rs = findKey U g keys rs') :
    ∀ (cs : Runes) (s : LoopState), encLoop U g rs cs s = encLoop U g rs' cs s := by
  have hn : ∀ s, nextChunk U g rs s = nextChunk U g rs' s := by
    intro s; unfold nextChunk; rw [h]
  intro cs
  induction cs with
  | nil => intro s; rfl
  | cons c cs ih => intro s; simp only [encLoop, hn, ih]

/-- the same result, with other recipients in the message -/
def withRecipients {α : Type} (rs : List Runes) (x : Outcome α × Inst × Msg) : Outcome α × Inst × Msg :=
  (x.1, x.2.1, { x.2.2 with recipients := rs })

theorem withId_recipients (f : Runes) (m : Msg) (rs : List Runes) : withId f { m with recipients := rs } = { withId f m with recipients := rs } := by
  unfold withId; split <;> rfl

theorem enrich_recipients {U : Unicode} {f : Runes} {inst : Inst} {m : Msg} {rs' : List Runes}
    (h : ∀ keys, findKey U inst.groupSize keys m.recipients = findKey U inst.groupSize keys rs') :
    enrichWithKey U f inst { m with recipients := rs' } = withRecipients rs' (enrichWithKey U f inst m) := by
  have hr : (withId f m).recipients = m.recipients := by unfold withId; split <;> rfl
  unfold enrichWithKey
  simp only [withId_recipients, hr, h]
  repeat' split
  all_goals first | rfl | (simp_all [withRecipients]; done)

theorem enrich_keeps_recipients {U : Unicode} {f : Runes} {inst i1 : Inst} {m m1 : Msg} {o : Outcome Unit} {rs : List Runes}
    (h : enrichWithKey U f inst m = (o, i1, m1)) (hr : m.recipients = rs) : m1.recipients = rs ∧ i1.groupSize = inst.groupSize := by
  have hr2 : (withId f m).recipients = rs := by rw [← hr]; unfold withId; split <;> rfl
  unfold enrichWithKey at h
  simp only at h
  repeat' split at h
  all_goals
    simp only [Prod.mk.injEq] at h
    obtain ⟨_, rfl, rfl⟩ := h
    exact ⟨hr2, rfl⟩

theorem encipherT_recipients {U : Unicode} {noise : Nat → Rune} {f : Runes} {inst : Inst} {m : Msg} {rs' : List Runes}
    (h : ∀ keys, findKey U inst.groupSize keys m.recipients = findKey U inst.groupSize keys rs') :
    encipherT U noise f inst { m with recipients := rs' } = withRecipients rs' (encipherT U noise f inst m) := by
  have hr : (withId f m).recipients = m.recipients := by unfold withId; split <;> rfl
  unfold encipherT
  simp only [withId_recipients]
  rw [enrich_recipients (by rw [hr]; exact h)]
  rcases he : enrichWithKey U f inst (withId f m) with ⟨o, i1, m1⟩
  have hm1 : m1.recipients = m.recipients ∧ i1.groupSize = inst.groupSize := enrich_keeps_recipients he hr
  rcases o with _ | e | _
  · simp only [withRecipients]
    rcases getKey U i1.keys m1.keyId.val with _ | i
    · rfl
    simp only [hm1.1, hm1.2]
    rw [encLoop_recipients h]
    rcases encLoop U inst.groupSize rs' m1.plainText ⟨i1.keys, newState, [], ⟨[], i⟩⟩ with ⟨o, s⟩
    rcases o with _ | e | _
    · simp only
      by_cases hz : inst.groupSize = 0
      · rw [if_pos hz, if_pos hz]; rfl
      rw [if_neg hz, if_neg hz]
      split <;> rfl
    · rfl
    · rfl
  · rfl
  · rfl

end K431
