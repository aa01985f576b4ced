import Verif.RoundLemmas
import Verif.SpecStore

/-! # Helper lemmas: what a successful or failing Encipher did -/

namespace K431
open Spec

theorem equalLoop_iff : ∀ (a b : Runes), a.length = b.length → (equalLoop a b = true ↔ a = b) := by
  intro a
  induction a with
  | nil => intro b h; cases b <;> simp_all [equalLoop]
  | cons x xs ih =>
    intro b h
    cases b with
    | nil => simp at h
    | cons y ys =>
      simp only [List.length_cons, Nat.add_right_cancel_iff] at h
      simp only [equalLoop]
      by_cases hxy : x = y
      · simp [hxy, ih ys h]
      · simp [hxy]

theorem equalRunes_iff (a b : Runes) : equalRunes (some a) (some b) = true ↔ a = b := by
  simp only [equalRunes]
  by_cases h : a.length = b.length
  · simp [h, equalLoop_iff a b h]
  · simp only [ne_eq, h, not_false_eq_true, if_true, Bool.false_eq_true, false_iff]
    intro he; exact h (by rw [he])

theorem presetCheck_ok (id : Runes) : ∀ keys : List Key, presetCheck id keys = .ok () →
    ∃ (i : Nat) (k : Key), keys[i]? = some k ∧ k.id.val = id ∧ k.used = false ∧ k.compromised = false ∧
      ∀ j k', j < i → keys[j]? = some k' → k'.id.val ≠ id := by
  intro keys
  induction keys with
  | nil => intro h; simp [presetCheck] at h
  | cons k ks ih =>
    intro h
    simp only [presetCheck] at h
    by_cases he : equalRunes (some k.id.val) (some id) = true
    · rw [if_pos he] at h
      rw [equalRunes_iff] at he
      refine ⟨0, k, rfl, he, ?_, ?_, by intro j _ hj; omega⟩
      · cases hu : k.used
        · rfl
        · simp [hu] at h
      · cases hu : k.used <;> cases hc : k.compromised <;> simp_all
    · rw [if_neg he] at h
      rw [equalRunes_iff] at he
      obtain ⟨i, k', h1, h2, h3, h4, h5⟩ := ih h
      refine ⟨i + 1, k', by simpa using h1, h2, h3, h4, ?_⟩
      intro j k'' hj hk
      cases j with
      | zero => simp at hk; subst hk; exact he
      | succ j => exact h5 j k'' (by omega) (by simpa using hk)

theorem presetCheck_not_panic (id : Runes) : ∀ keys : List Key, presetCheck id keys ≠ .panic := by
  intro keys
  induction keys with
  | nil => simp [presetCheck]
  | cons k ks ih =>
    simp only [presetCheck]
    repeat' split
    all_goals first | exact ih | simp

/-- How `EnrichWithKey` can succeed (group size not zero). -/
inductive Enriched (U : Unicode) (inst : Inst) (m : Msg) : Inst → Msg → Prop
  /-- the message came with a key id -/
  | preset (i : Nat) (k : Key) : m.keyId.val ≠ [] → m.keyId.val.length = inst.groupSize →
      inst.keys[i]? = some k → k.id.val = m.keyId.val → k.used = false → k.compromised = false →
      (∀ (j : Nat) (k' : Key), j < i → inst.keys[j]? = some k' → k'.id.val ≠ m.keyId.val) →
      Enriched U inst m inst m
  /-- a key was selected -/
  | auto (i : Nat) (k : Key) : m.keyId.val = [] → m.cipherText = [] →
      findKey U inst.groupSize inst.keys m.recipients = some i → inst.keys[i]? = some k →
      Enriched U inst m { inst with keys := setUsed inst.keys i true } { m with keyId := k.id }

theorem enrich_ok {U : Unicode} {f : Runes} {inst inst1 : Inst} {m m1 : Msg} (hg : inst.groupSize ≠ 0)
    (h : enrichWithKey U f inst m = (.ok (), inst1, m1)) :
    m.plainText ≠ [] ∧ Enriched U inst (withId f m) inst1 m1 := by
  have hpl : (withId f m).plainText = m.plainText := by unfold withId; split <;> rfl
  unfold enrichWithKey at h
  simp only at h
  by_cases hp : (withId f m).plainText.length = 0
  · rw [if_pos hp] at h; simp at h
  · rw [if_neg hp] at h
    refine ⟨by intro he; rw [hpl, he] at hp; simp at hp, ?_⟩
    by_cases hk : (withId f m).keyId.val.length > 0
    · rw [if_pos hk] at h
      by_cases hl : (withId f m).keyId.val.length ≠ inst.groupSize
      · rw [if_pos hl] at h; simp at h
      · rw [if_neg hl] at h
        simp only [Prod.mk.injEq] at h
        obtain ⟨h1, rfl, rfl⟩ := h
        obtain ⟨i, k, a, b, c, d, e⟩ := presetCheck_ok _ _ h1
        exact .preset i k (by intro he; rw [he] at hk; simp at hk) (by simpa using hl) a b c d e
    · rw [if_neg hk] at h
      have hk0 : (withId f m).keyId.val = [] := List.length_eq_zero_iff.1 (by omega)
      by_cases hc : (withId f m).cipherText.length > 0
      · rw [if_pos hc] at h
        rw [if_pos (by rw [hk0]; simp; omega)] at h
        simp at h
      · rw [if_neg hc] at h
        rcases hf : findKey U inst.groupSize inst.keys (withId f m).recipients with _ | i
        · rw [hf] at h; simp at h
        · rw [hf] at h
          simp only at h
          rcases hi : inst.keys[i]? with _ | k
          · rw [hi] at h; simp at h
          · rw [hi] at h
            simp only [Prod.mk.injEq, true_and] at h
            obtain ⟨rfl, rfl⟩ := h
            exact .auto i k hk0 (List.length_eq_zero_iff.1 (by omega)) hf hi

theorem enrich_groupSize {U : Unicode} {f : Runes} {inst inst1 : Inst} {m m1 : Msg} {o : Outcome Unit}
    (h : enrichWithKey U f inst m = (o, inst1, m1)) : inst1.groupSize = inst.groupSize := by
  unfold enrichWithKey at h
  simp only at h
  repeat' split at h
  all_goals (simp only [Prod.mk.injEq] at h; obtain ⟨_, rfl, _⟩ := h; rfl)

theorem enrich_withId {U : Unicode} {f : Runes} {inst : Inst} {m : Msg} :
    enrichWithKey U f inst (withId f m) = enrichWithKey U f inst m := by
  have : withId f (withId f m) = withId f m := by
    unfold withId
    by_cases h : m.id.length = 0
    · simp [h]
    · simp [h]
  unfold enrichWithKey
  rw [this]

/-- Everything about a successful `Encipher`. -/
structure EncOk (U : Unicode) (f : Runes) (inst : Inst) (m : Msg) (chunks : List Chunk)
    (inst' : Inst) (m' : Msg) (inst1 : Inst) (m1 : Msg) (i : Nat) (s : LoopState) (out : Runes) : Prop where
  hg : inst.groupSize ≠ 0
  hg1 : inst1.groupSize = inst.groupSize
  plain : m.plainText ≠ []
  enriched : Enriched U inst (withId f m) inst1 m1
  first : getKey U inst1.keys m1.keyId.val = some i
  loop : encLoop U inst.groupSize m1.recipients m1.plainText ⟨inst1.keys, newState, [], ⟨[], i⟩⟩ = (.ok (), s)
  hchunks : chunks = s.chunks ++ [{ s.cur with
    enc := s.cur.enc ++ List.replicate (padCount inst.groupSize (s.cur.enc.length + totalLength s.chunks)) 90 }]
  ciphered : cipherChunks s.keys chunks = (.ok (), out)
  hinst : inst' = { inst1 with keys := s.keys }
  hm : m' = { m1 with cipherText := out }

theorem encipherT_ok {U : Unicode} {noise : Nat → Rune} {f : Runes} {inst inst' : Inst} {m m' : Msg}
    {chunks : List Chunk} (h : encipherT U noise f inst m = (.ok chunks, inst', m')) :
    ∃ inst1 m1 i s out, EncOk U f inst m chunks inst' m' inst1 m1 i s out := by
  unfold encipherT at h
  simp only [enrich_withId] at h
  rcases he : enrichWithKey U f inst m with ⟨u | e | _, inst1, m1⟩
  · rw [he] at h
    simp only at h
    rcases hk : getKey U inst1.keys m1.keyId.val with _ | i
    · rw [hk] at h; simp at h
    · rw [hk] at h
      simp only at h
      have hgs := enrich_groupSize he
      rcases hl : encLoop U inst1.groupSize m1.recipients m1.plainText ⟨inst1.keys, newState, [], ⟨[], i⟩⟩
        with ⟨u' | e' | _, s⟩
      · rw [hl] at h
        simp only at h
        by_cases hg : inst1.groupSize = 0
        · rw [if_pos hg] at h; simp at h
        · rw [if_neg hg] at h
          have hg' : inst.groupSize ≠ 0 := by rw [← hgs]; exact hg
          obtain ⟨hp, hen⟩ := enrich_ok hg' he
          rw [pad_eq] at h
          simp only at h
          rcases hc : cipherChunks s.keys (s.chunks ++ [{ s.cur with
            enc := s.cur.enc ++ List.replicate (padCount inst1.groupSize (s.cur.enc.length + totalLength s.chunks)) 90 }])
            with ⟨u2 | e2 | _, out⟩
          · rw [hc] at h
            simp only [Prod.mk.injEq, Outcome.ok.injEq] at h
            obtain ⟨rfl, rfl, rfl⟩ := h
            rw [hgs] at hl hc
            exact ⟨inst1, m1, i, s, out, hg', hgs, hp, hen, hk, hl, by rw [hgs], by rw [hgs]; exact hc, rfl, rfl⟩
          · rw [hc] at h; simp at h
          · rw [hc] at h; simp at h
      · rw [hl] at h; simp at h
      · rw [hl] at h; simp at h
  · rw [he] at h; simp at h
  · rw [he] at h; simp at h

theorem loopOk_start (keys : List Key) (i : Nat) : LoopOk ⟨keys, newState, [], ⟨[], i⟩⟩ := ⟨plain_new, rfl⟩

/-- the loop changes only flags -/
theorem encLoop_sameMat {U : Unicode} {g : Nat} {r : List Runes} {text : Runes} {s s' : LoopState}
    {o : Outcome Unit} (hs : LoopOk s) (h : encLoop U g r text s = (o, s')) : SameMat s'.keys s.keys := by
  obtain ⟨_, _, _, _, h, _⟩ := encLoop_inv (fun _ s' => SameMat s'.keys s.keys)
    (fun d a b hp hok hn => by
      obtain ⟨j, k, _, _, rfl⟩ := nextChunk_ok hok hn
      exact (setUsed_sameMat _ _ _).trans hp)
    (fun d a c t i hp _ _ => hp) text [] s o s' (SameMat.refl _) hs h
  exact h

theorem Enriched.sameMat {U : Unicode} {inst inst1 : Inst} {m m1 : Msg} (h : Enriched U inst m inst1 m1) :
    SameMat inst1.keys inst.keys := by
  cases h with
  | preset => exact SameMat.refl _
  | auto i k => exact setUsed_sameMat _ _ _

theorem Enriched.plainText {U : Unicode} {inst inst1 : Inst} {m m1 : Msg} (h : Enriched U inst m inst1 m1) :
    m1.plainText = m.plainText ∧ m1.recipients = m.recipients ∧ m1.id = m.id ∧ m1.from_ = m.from_ ∧
    m1.dtg = m.dtg ∧ m1.radiogram = m.radiogram := by
  cases h <;> exact ⟨rfl, rfl, rfl, rfl, rfl, rfl⟩

theorem withId_fields (f : Runes) (m : Msg) : (withId f m).plainText = m.plainText ∧
    (withId f m).recipients = m.recipients ∧ (withId f m).keyId = m.keyId ∧
    (withId f m).cipherText = m.cipherText := by
  unfold withId; split <;> exact ⟨rfl, rfl, rfl, rfl⟩

theorem EncOk.sameMat {U : Unicode} {f : Runes} {inst inst' inst1 : Inst} {i : Nat} {s : LoopState} {out : Runes} {m m' m1 : Msg} {chunks : List Chunk}
    (e : EncOk U f inst m chunks inst' m' inst1 m1 i s out) : SameMat s.keys inst.keys :=
  (encLoop_sameMat (loopOk_start _ _) e.loop).trans e.enriched.sameMat

theorem EncOk.simF {U : Unicode} (hU : U.Lawful) {f : Runes} {inst inst' inst1 : Inst} {i : Nat} {s : LoopState} {out : Runes} {m m' m1 : Msg} {chunks : List Chunk}
    (e : EncOk U f inst m chunks inst' m' inst1 m1 i s out) (rkeys : List Key) (i0 : Nat)
    (h0 : ∀ k, inst.keys[i]? = some k → getKey U rkeys k.id.val = some i0) :
    LoopOk s ∧ Sim U inst.groupSize inst.keys rkeys i0 m.plainText s := by
  have hpt : m1.plainText = m.plainText := by
    rw [e.enriched.plainText.1, (withId_fields f m).1]
  have hloop := e.loop
  rw [hpt] at hloop
  obtain ⟨h1, h2, _⟩ := encLoop_inv_ok (g := inst.groupSize)
    (fun d s => Sim U inst.groupSize inst.keys rkeys i0 d s ∧ SameMat s.keys inst.keys)
    (fun d s s' hp hok hn => by
      refine ⟨Sim.next e.hg hp.1 hok hp.2 hn, ?_⟩
      obtain ⟨j, k, _, _, rfl⟩ := nextChunk_ok hok hn
      exact (setUsed_sameMat _ _ _).trans hp.2)
    (fun d s c t i hp hok hf => ⟨hp.1.char hU hf, hp.2⟩)
    (s := ⟨inst1.keys, newState, [], ⟨[], i⟩⟩)
    ⟨by
      intro out hc hr
      simp only [List.nil_append] at hc hr
      rw [cipherChunks_one] at hc
      obtain ⟨k, hk, _, hc⟩ := hc
      simp [cipherChunk] at hc
      subst hc
      obtain ⟨k', j, kr, a1, a2, a3, a4⟩ := hr ⟨[], i⟩ (by simp)
      have hj : j = i0 := by have := h0 k' a1; rw [a2] at this; simpa using this
      subst hj
      refine ⟨⟨j, 0, [], newState, [j], []⟩, rfl, rfl, rfl, rfl, plain_new, rfl, rfl,
        ⟨k', kr, a1, a2, a3, a4⟩, .cons ⟨k', kr, a1, a2, a3, a4⟩ .nil⟩,
     e.enriched.sameMat⟩ (loopOk_start _ _) hloop
  exact ⟨h1, h2⟩

/-- The receiver's loop over the whole ciphertext. -/
theorem EncOk.decodes {U : Unicode} (hU : U.Lawful) {f : Runes} {inst inst' inst1 : Inst} {i : Nat} {s : LoopState} {out : Runes} {m m' m1 : Msg}
    {chunks : List Chunk} (e : EncOk U f inst m chunks inst' m' inst1 m1 i s out) (rkeys : List Key) (i0 : Nat)
    (h0 : ∀ k, inst.keys[i]? = some k → getKey U rkeys k.id.val = some i0)
    (hr : ∀ ch ∈ chunks, Resolves U inst.keys rkeys ch.key) :
    ∃ D, decLoop U inst.groupSize rkeys m'.cipherText ⟨i0, 0, [], newState, [i0], []⟩ = (.ok D, m.plainText.map canon) ∧
      Rel2 (fun (ch : Chunk) j => ResolvesTo U inst.keys rkeys ch.key j) chunks D.stack := by
  obtain ⟨hok, hsim⟩ := e.simF hU rkeys i0 h0
  have hc := e.ciphered
  have hmc : m'.cipherText = out := by rw [e.hm]
  have hch0 := e.hchunks
  rw [cipherChunks_sameMat e.sameMat, hch0] at hc
  have hr' : ∀ ch ∈ s.chunks ++ [s.cur], Resolves U inst.keys rkeys ch.key := by
    intro ch hch
    rcases List.mem_append.1 hch with hch | hch
    · exact hr ch (by rw [e.hchunks]; exact List.mem_append_left _ hch)
    · rw [List.mem_singleton] at hch; subst hch
      exact hr { s.cur with enc := s.cur.enc ++ List.replicate (padCount inst.groupSize (s.cur.enc.length + totalLength s.chunks)) 90 }
        (by rw [e.hchunks]; simp)
  obtain ⟨D, a2, a3, a4, a5, a6, a7, a8, a9, kr, o2, b1, b2, b3⟩ := hsim.extend _ _ hc hr'
  obtain ⟨st', p1, p2⟩ := decode_pad U D.plain _ D.st a5
  have hd := decLoop_plain U inst.groupSize rkeys _ D kr o2 _ _ b1 b2 p1 p2.k
  rw [hmc, b3, hd, a2]
  refine ⟨_, rfl, ?_⟩
  rw [hch0]
  exact forall₂_change_last a9 (fun _ h => h)

/-! ## Look-up of well-formed ids -/

theorem goStr_letters {s : Runes} (h : ∀ c ∈ s, IsLetter c) : goStr s = s := by
  unfold goStr
  conv => rhs; rw [← List.map_id s]
  apply List.map_congr_left
  intro c hc
  have := h c hc
  unfold IsLetter at this
  have hv : validRune c = true := by simp only [validRune, decide_eq_true_eq]; omega
  simp [hv]

theorem letter_mem_alphabet : ∀ c, IsLetter c → c ∈ capitals := by
  intro c hc
  unfold IsLetter at hc
  obtain ⟨n, hn, rfl⟩ : ∃ n : Nat, n < 26 ∧ c = (n : Int) + 65 :=
    ⟨(c - 65).toNat, by omega, by omega⟩
  have : ∀ n < 26, ((n : Nat) : Int) + 65 ∈ capitals := by decide
  exact this n hn

theorem toUpper_letter {U : Unicode} (hU : U.Lawful) {c : Rune} (h : IsLetter c) : U.toUpper c = c :=
  (hU.capital c (letter_mem_alphabet c h)).2.2.1

theorem isSpace_letter {U : Unicode} (hU : U.Lawful) {c : Rune} (h : IsLetter c) : U.isSpace c = false := by
  apply hU.isSpace_legend
  · unfold alphabet; simp [letter_mem_alphabet c h]
  · unfold IsLetter at h; omega

theorem dropWhile_none {p : Rune → Bool} {s : Runes} (h : ∀ c ∈ s, p c = false) : s.dropWhile p = s := by
  cases s with
  | nil => rfl
  | cons x xs => rw [List.dropWhile_cons_of_neg]; simp [h x (by simp)]

theorem trimSpace_letters {U : Unicode} {s : Runes} (h : ∀ c ∈ s, U.isSpace c = false) :
    trimSpace U s = s := by
  unfold trimSpace
  rw [dropWhile_none h, dropWhile_none (by simpa using h), List.reverse_reverse]

theorem toUpperStr_letters {U : Unicode} (hU : U.Lawful) {s : Runes} (h : ∀ c ∈ s, IsLetter c) :
    toUpperStr U s = s := by
  unfold toUpperStr
  conv => rhs; rw [← List.map_id s]
  apply List.map_congr_left
  intro c hc
  exact toUpper_letter hU (h c hc)

theorem lookupName_letters {U : Unicode} (hU : U.Lawful) {s : Runes} (h : ∀ c ∈ s, IsLetter c) :
    lookupName U s = s := by
  unfold lookupName
  rw [goStr_letters h, trimSpace_letters (fun c hc => isSpace_letter hU (h c hc)), toUpperStr_letters hU h]

theorem goStr_eq_letters {s t : Runes} (ht : ∀ c ∈ t, IsLetter c) : goStr s = t ↔ s = t := by
  constructor
  · intro h
    subst h
    unfold goStr
    apply List.ext_getElem?
    intro i
    rcases hs : s[i]? with _ | c
    · simp [hs]
    · have : (goStr s)[i]? = some (if validRune c then c else 65533) := by simp [goStr, hs]
      have hm := ht _ (List.mem_of_getElem? this)
      simp only [List.getElem?_map, hs, Option.map_some]
      by_cases hv : validRune c = true
      · simp [hv]
      · rw [if_neg hv] at hm
        exact absurd hm (by decide)
  · rintro rfl; exact goStr_letters ht

theorem dropWhile_dropWhile (p : Rune → Bool) (s : Runes) : (s.dropWhile p).dropWhile p = s.dropWhile p := by
  induction s with
  | nil => rfl
  | cons x xs ih =>
    by_cases h : p x = true
    · rw [List.dropWhile_cons_of_pos h]; exact ih
    · rw [List.dropWhile_cons_of_neg h, List.dropWhile_cons_of_neg h]

theorem dropWhile_map (p : Rune → Bool) (f : Rune → Rune) (h : ∀ c, p (f c) = p c) (s : Runes) :
    (s.map f).dropWhile p = (s.dropWhile p).map f := by
  induction s with
  | nil => rfl
  | cons x xs ih =>
    by_cases hx : p x = true
    · rw [List.map_cons, List.dropWhile_cons_of_pos (by rw [h]; exact hx), List.dropWhile_cons_of_pos hx]; exact ih
    · rw [List.map_cons, List.dropWhile_cons_of_neg (by rw [h]; exact hx), List.dropWhile_cons_of_neg hx]; rfl

theorem trimSpace_toUpper {U : Unicode} (hU : U.Lawful) (s : Runes) :
    trimSpace U (toUpperStr U s) = toUpperStr U (trimSpace U s) := by
  unfold trimSpace toUpperStr
  rw [dropWhile_map _ _ hU.isSpace_toUpper, ← List.map_reverse, dropWhile_map _ _ hU.isSpace_toUpper,
    ← List.map_reverse]

theorem dropWhile_prefix_of_head {p : Rune → Bool} : ∀ (s : Runes), (∀ c, s.head? = some c → p c = false) →
    s.dropWhile p = s := by
  intro s h
  cases s with
  | nil => rfl
  | cons x xs => rw [List.dropWhile_cons_of_neg]; simp [h x rfl]

theorem dropWhile_head (p : Rune → Bool) : ∀ (s : Runes) c, (s.dropWhile p).head? = some c → p c = false := by
  intro s
  induction s with
  | nil => intro c h; cases h
  | cons x xs ih =>
    intro c h
    by_cases hx : p x = true
    · rw [List.dropWhile_cons_of_pos hx] at h; exact ih c h
    · rw [List.dropWhile_cons_of_neg hx] at h; simp at h; subst h; simpa using hx

theorem trimSpace_idem (U : Unicode) (s : Runes) : trimSpace U (trimSpace U s) = trimSpace U s := by
  -- the trimmed string neither starts nor ends with a space
  have hend : ∀ c, (trimSpace U s).reverse.head? = some c → U.isSpace c = false := by
    intro c h
    unfold trimSpace at h
    rw [List.reverse_reverse] at h
    exact dropWhile_head _ _ _ h
  have hstart : ∀ c, (trimSpace U s).head? = some c → U.isSpace c = false := by
    intro c h
    -- a non-empty prefix of the left-trimmed string starts with the same rune
    have hpre : trimSpace U s <+: s.dropWhile U.isSpace := by
      unfold trimSpace
      have := List.dropWhile_suffix U.isSpace (l := (s.dropWhile U.isSpace).reverse)
      have := List.reverse_prefix.2 this
      simpa using this
    obtain ⟨t, ht⟩ := hpre
    have : (s.dropWhile U.isSpace).head? = some c := by
      rw [← ht]
      cases hts : trimSpace U s with
      | nil => rw [hts] at h; cases h
      | cons x xs => rw [hts] at h; simpa using h
    exact dropWhile_head _ _ _ this
  show (((trimSpace U s).dropWhile U.isSpace).reverse.dropWhile U.isSpace).reverse = trimSpace U s
  rw [dropWhile_prefix_of_head _ hstart, dropWhile_prefix_of_head _ hend, List.reverse_reverse]

theorem toUpperStr_idem {U : Unicode} (hU : U.Lawful) (s : Runes) :
    toUpperStr U (toUpperStr U s) = toUpperStr U s := by
  unfold toUpperStr
  rw [List.map_map]
  apply List.map_congr_left
  intro c _
  exact hU.toUpper_idem c

/-- Looking up the id of the key that was found under a name finds the same key again. -/
theorem lookupName_of_found {U : Unicode} (hU : U.Lawful) {id id' : Runes}
    (h : goStr id' = lookupName U id) : lookupName U id' = lookupName U id := by
  conv => lhs; unfold lookupName
  rw [h]
  unfold lookupName
  rw [trimSpace_toUpper hU, trimSpace_idem, toUpperStr_idem hU]

theorem getKey_of_found {U : Unicode} (hU : U.Lawful) {keys rkeys : List Key} {id : Runes} {i : Nat} {k : Key}
    (h : getKey U keys id = some i) (hk : keys[i]? = some k) : getKey U rkeys k.id.val = getKey U rkeys id := by
  obtain ⟨k', h1, h2, _⟩ := getKey_some h
  rw [hk] at h1; cases h1
  unfold getKey
  rw [lookupName_of_found hU h2]

/-! ## Well-formed stores -/

theorem WellFormed.congr {a b : List Key} (h : WellFormed a) (e : SameMat a b) : WellFormed b := by
  refine ⟨by rw [← e.ids]; exact h.distinct, ?_⟩
  intro k hk
  obtain ⟨i, hi⟩ := List.mem_iff_getElem?.1 hk
  obtain ⟨k', h1, h2⟩ := e.symm.get hi
  rw [← Key.mat_id h2]
  exact h.letters k' (List.mem_of_getElem? h1)

theorem nodup_getElem? {α : Type} [DecidableEq α] {l : List α} (h : l.Nodup) {i j : Nat} {a : α}
    (hi : l[i]? = some a) (hj : l[j]? = some a) : i = j := by
  obtain ⟨h1, h2⟩ := List.getElem?_eq_some_iff.1 hi
  exact (List.getElem?_inj h1 h).1 (hi.trans hj.symm)

theorem WellFormed.inj {keys : List Key} (h : WellFormed keys) {i j : Nat} {k k' : Key}
    (hi : keys[i]? = some k) (hj : keys[j]? = some k') (he : k.id.val = k'.id.val) : i = j := by
  apply nodup_getElem? h.distinct (a := k.id.val)
  · simp [hi]
  · simp [hj, he]

theorem WellFormed.getKey {U : Unicode} (hU : U.Lawful) {keys : List Key} (h : WellFormed keys) {i : Nat} {k : Key}
    (hk : keys[i]? = some k) : getKey U keys k.id.val = some i := by
  have hl := h.letters k (List.mem_of_getElem? hk)
  have hn := lookupName_letters hU hl
  rcases hg : K431.getKey U keys k.id.val with _ | j
  · have := getKey_none hg k (List.mem_of_getElem? hk)
    rw [hn] at this
    exact absurd (goStr_letters hl) this
  · obtain ⟨k', h1, h2, _⟩ := getKey_some hg
    rw [hn, goStr_eq_letters hl] at h2
    rw [h.inj h1 hk h2]

theorem WellFormed.distinguishable {U : Unicode} (hU : U.Lawful) {keys : List Key} (h : WellFormed keys) : Distinguishable U keys := by
  have : keys.map (fun k => toUpperStr U (trimSpace U (goStr k.id.val))) = keys.map (fun k => k.id.val) :=
    List.map_congr_left (fun k hk => lookupName_letters hU (h.letters k hk))
  unfold Distinguishable
  rw [this]; exact h.distinct

theorem Distinguishable.congr {U : Unicode} {a b : List Key} (h : Distinguishable U a)
    (e : a.map (fun k => k.id.val) = b.map (fun k => k.id.val)) : Distinguishable U b := by
  unfold Distinguishable at h ⊢
  have : ∀ l : List Key, l.map (fun k => toUpperStr U (trimSpace U (goStr k.id.val))) =
      (l.map (fun k => k.id.val)).map (fun v => toUpperStr U (trimSpace U (goStr v))) := by
    intro l; rw [List.map_map]; rfl
  rw [this] at h ⊢
  rw [← e]; exact h

/-- a key looked up by its own id is found, if anything is -/
theorem Distinguishable.getKey {U : Unicode} (hU : U.Lawful) {keys : List Key} (h : Distinguishable U keys) {i j : Nat} {k : Key}
    (hk : keys[i]? = some k) (hj : getKey U keys k.id.val = some j) : j = i := by
  obtain ⟨k', h1, h2, _⟩ := getKey_some hj
  have h3 := lookupName_of_found hU h2
  unfold Distinguishable at h
  apply nodup_getElem? h (a := lookupName U k.id.val)
  · rw [List.getElem?_map, h1, ← h3]; rfl
  · rw [List.getElem?_map, hk]; rfl

end K431
