import Verif.SpecFits
import Verif.LengthLemmas
import Verif.AirLemmas

/-!
# Lemmas: the loop of `Encipher` lays out the text
-/

namespace K431
open Spec

theorem char_facts {U : Unicode} (hU : U.Lawful) {c : Rune} (hc : c ∈ alphabet) :
    ∃ i, findInTables (U.toUpper c) 0 characterTables = some (if c ∈ secondLine then 1 else 0, i) ∧
      ∀ s, needsToggle U s c = ((s && decide (c ∈ capitals)) || (!s && decide (c ∈ smalls))) := by
  have h1 : ∀ x ∈ capitals ++ neutrals, (findInTables x 0 characterTables).map Prod.fst = some (if x ∈ secondLine then 1 else 0) := by decide
  have h2 : ∀ x ∈ smalls, (findInTables (x - 32) 0 characterTables).map Prod.fst = some (if x ∈ secondLine then 1 else 0) := by decide
  have fin : ∀ {o : Option (Nat × Nat)} {t : Nat}, o.map Prod.fst = some t → ∃ i, o = some (t, i) := by
    intro o t h
    rcases o with _ | ⟨a, b⟩
    · cases h
    · simp only [Option.map_some, Option.some.injEq] at h; exact ⟨b, by rw [h]⟩
  have hcs : ∀ x ∈ capitals, x ∉ smalls := by decide
  have hsc : ∀ x ∈ smalls, x ∉ capitals := by decide
  have hnc : ∀ x ∈ neutrals, x ∉ capitals ∧ x ∉ smalls := by decide
  unfold alphabet at hc
  simp only [List.mem_append] at hc
  rcases hc with (hc | hc) | hc
  · obtain ⟨a, b, d, -⟩ := hU.capital c hc
    rw [d]
    obtain ⟨i, hi⟩ := fin (h1 c (by simp [hc]))
    refine ⟨i, hi, fun s => ?_⟩
    simp only [needsToggle, a, b, hc, hcs c hc]
    cases s <;> rfl
  · obtain ⟨a, b, d, -⟩ := hU.small c hc
    rw [d]
    obtain ⟨i, hi⟩ := fin (h2 c hc)
    refine ⟨i, hi, fun s => ?_⟩
    simp only [needsToggle, a, b, hc, hsc c hc]
    cases s <;> rfl
  · obtain ⟨a, b, d, -⟩ := hU.neutral c hc
    rw [d]
    obtain ⟨i, hi⟩ := fin (h1 c (by simp [hc]))
    refine ⟨i, hi, fun s => ?_⟩
    simp only [needsToggle, a, b, hnc c hc]
    cases s <;> rfl

/-- the loop after a change to the key `k` at `j` -/
def nextOf (s : LoopState) (j : Nat) (k : Key) : LoopState :=
  { keys := setUsed s.keys j true
    st := newState
    chunks := s.chunks ++ [{ s.cur with enc := s.cur.enc ++ sw s.st.table 1 ++ [89] ++ k.id.val }]
    cur := ⟨[], j⟩ }

/-- where the writer is in the loop -/
def penOf (s : LoopState) : Pen :=
  ⟨keyLenAt s.keys s.cur.key, s.cur.enc.length, s.cur.enc.length + totalLength s.chunks, decide (s.st.table = 1), s.st.shift⟩

theorem penOf_char {U : Unicode} {s : LoopState} (hs : LoopOk s) {c : Rune} {i : Nat}
    (ht : ∀ s, needsToggle U s c = ((s && decide (c ∈ capitals)) || (!s && decide (c ∈ smalls)))) :
    penOf (afterChar U s c (if c ∈ secondLine then 1 else 0) i) = (penOf s).write c := by
  have htab := hs.plain.tab
  have htog : needsToggle U s.st.shift c = (penOf s).toggles c := by rw [ht]; rfl
  have hcost : (word U s.st.table s.st.shift c (if c ∈ secondLine then 1 else 0) i).length = (penOf s).cost c := by
    unfold word Pen.cost
    rw [htog]
    by_cases hq : (penOf s).toggles c = true
    · rw [if_pos hq, if_pos hq]
      simp only [penOf, List.length_append, List.length_singleton, sw]
      rcases (by omega : s.st.table = 0 ∨ s.st.table = 1) with h1 | h1 <;> by_cases h2 : c ∈ secondLine <;> simp [h1, h2]
    · rw [if_neg hq, if_neg hq]
      simp only [penOf, List.length_append, List.length_singleton, sw]
      rcases (by omega : s.st.table = 0 ∨ s.st.table = 1) with h1 | h1 <;> by_cases h2 : c ∈ secondLine <;> simp [h1, h2]
  unfold Pen.write
  rw [← hcost, ← htog]
  simp only [penOf, afterChar, List.length_append]
  congr 1
  · omega
  · by_cases h2 : c ∈ secondLine <;> simp [h2]

theorem padLengths_none {U : Unicode} {g : Nat} {r : List Runes} {keys : List Key} (h : findKey U g keys r = none) : padLengths g r keys = [] := by
  unfold padLengths
  rw [List.map_eq_nil_iff, List.filter_eq_nil_iff]
  intro k hk
  have := findKey_none h k hk
  rw [eligible_iff] at this
  simpa using this

theorem padLengths_some {U : Unicode} {g : Nat} {r : List Runes} {keys : List Key} {j : Nat} (h : findKey U g keys r = some j) :
    ∃ k, keys[j]? = some k ∧ Selectable g r k ∧ padLengths g r keys = k.runes.length :: padLengths g r (setUsed keys j true) := by
  obtain ⟨k, h1, h2, h3⟩ := findKey_some h
  simp only [eligible_iff] at h2 h3
  refine ⟨k, h1, h2, ?_⟩
  clear h
  induction keys generalizing j with
  | nil => simp at h1
  | cons x xs ih =>
    cases j with
    | zero =>
      simp only [List.getElem?_cons_zero, Option.some.injEq] at h1
      subst h1
      have h4 : ¬ Selectable g r { x with used := true } := fun h => by have := h.1; simp at this
      simp [padLengths, setUsed, h2, h4]
    | succ j =>
      have h0 := h3 0 x (by omega) rfl
      have := ih (j := j) (by simpa using h1) (fun p k' hp hk => h3 (p + 1) k' (by omega) (by simpa using hk))
      simpa [padLengths, setUsed, List.filter_cons, h0] using this

theorem nextChunk_out {U : Unicode} {g : Nat} {r : List Runes} {s : LoopState} (h : findKey U g s.keys r = none) :
    nextChunk U g r s = (.err .outOfKeys, s) := by
  unfold nextChunk; rw [h]

theorem nextChunk_some (U : Unicode) {g : Nat} {r : List Runes} {s : LoopState} (hs : LoopOk s) {j : Nat} {k : Key}
    (hf : findKey U g s.keys r = some j) (hk : s.keys[j]? = some k) :
    nextChunk U g r s = (.ok (), nextOf s j k) := by
  rcases hn : nextChunk U g r s with ⟨o, s'⟩
  have ho : o = .ok () := by
    unfold nextChunk at hn
    rw [hf] at hn
    simp only at hn
    rw [hk] at hn
    simp only [changeKey, secondaryTable] at hn
    rw [gotoTable_some 1 (by decide) s.st hs.plain.tab] at hn
    by_cases ht : s.st.table = 1 <;> simp [ht] at hn <;> exact hn.1.symm
  subst ho
  obtain ⟨j', k', hf', hk', rfl⟩ := nextChunk_ok hs hn
  rw [hf] at hf'; cases hf'
  rw [hk] at hk'; cases hk'
  rfl

theorem announce_length {g : Nat} {r : List Runes} {s : LoopState} {k : Key} (hsel : Selectable g r k) :
    (s.cur.enc ++ sw s.st.table 1 ++ [89] ++ k.id.val).length = (penOf s).used + (penOf s).announce g := by
  have := hsel.2.1
  simp only [List.length_append, List.length_singleton, sw, penOf, Pen.announce, this]
  by_cases h1 : s.st.table = 1 <;> simp [h1] <;> omega

theorem penOf_next {g : Nat} {r : List Runes} {s : LoopState} {j : Nat} {k : Key} (hk : s.keys[j]? = some k) (hsel : Selectable g r k) :
    penOf (nextOf s j k) = Pen.fresh k.runes.length ((penOf s).total + (penOf s).announce g) := by
  have e1 : totalLength (nextOf s j k).chunks = (penOf s).total + (penOf s).announce g := by
    have h := announce_length (s := s) hsel
    have h2 : totalLength (nextOf s j k).chunks = totalLength s.chunks + (s.cur.enc ++ sw s.st.table 1 ++ [89] ++ k.id.val).length := by
      simp only [nextOf, totalLength_append]
      simp [totalLength]
    rw [h2, h]
    simp only [penOf]
    omega
  have e2 : keyLenAt (nextOf s j k).keys (nextOf s j k).cur.key = k.runes.length := by
    simp only [nextOf, keyLenAt_setUsed, keyLenAt_eq hk]
  simp only [penOf, Pen.fresh] at e1 ⊢
  rw [e2, e1]
  simp [nextOf, newState]

/-- What the loop does is what the layout says. -/
theorem encLoop_layOut {U : Unicode} (hU : U.Lawful) {g : Nat} {r : List Runes} : ∀ (text : Runes) (s : LoopState), LoopOk s → (∀ c ∈ text, c ∈ alphabet) →
    (layOut g (padLengths g r s.keys) (penOf s) text = none ∧ (encLoop U g r text s).1 = .err .outOfKeys) ∨
    (∃ l s' more, layOut g (padLengths g r s.keys) (penOf s) text = some l ∧ encLoop U g r text s = (.ok (), s') ∧ s'.chunks = s.chunks ++ more ∧
      (∀ j, keyLenAt s'.keys j = keyLenAt s.keys j) ∧ l.pads = more.length + 1 ∧
      l.letters = s'.cur.enc.length + totalLength s'.chunks + padCount g (s'.cur.enc.length + totalLength s'.chunks) ∧
      (l.fits = true ↔ (∀ ch ∈ more, ch.enc.length ≤ keyLenAt s.keys ch.key) ∧
        s'.cur.enc.length + padCount g (s'.cur.enc.length + totalLength s'.chunks) ≤ keyLenAt s.keys s'.cur.key)) := by
  intro text
  induction text with
  | nil =>
    intro s _ _
    right
    refine ⟨⟨decide ((penOf s).used + (g - (penOf s).total % g) % g ≤ (penOf s).len), (penOf s).total + (g - (penOf s).total % g) % g, 1⟩, s, [], ?_, rfl, by simp, fun _ => rfl, rfl, rfl, ?_⟩
    · rw [layOut.eq_def]
    · simp only [penOf, padCount, List.not_mem_nil, false_implies, implies_true, true_and]
      exact decide_eq_true_iff
  | cons c cs ih =>
    intro s hs hc
    obtain ⟨i, hf, ht⟩ := char_facts hU (hc c (by simp))
    have hcs : ∀ c ∈ cs, c ∈ alphabet := fun x hx => hc x (by simp [hx])
    by_cases hx : keyExhausted g s = true
    · have hle : (penOf s).len ≤ (penOf s).used + g + 2 := by
        have := (keyExhausted_iff hs).1 hx
        simp only [penOf, capAt] at this ⊢
        omega
      rcases hfk : findKey U g s.keys r with _ | j
      · left
        rw [padLengths_none hfk, layOut.eq_def]
        dsimp only
        rw [if_pos hle]
        simp only [encLoop, hx, if_true, nextChunk_out hfk, and_self]
      · obtain ⟨k, hk, hsel, hpl⟩ := padLengths_some hfk
        have hn := nextChunk_some U hs hfk hk
        have hs1 := hs.next hn
        rw [encLoop_cons U hf hs1 (by rw [if_pos hx]; exact hn)]
        have hpen := penOf_char (U := U) hs1 (i := i) ht
        generalize hs1e : nextOf s j k = s1 at *
        have hann := announce_length (s := s) hsel
        have hfresh : penOf s1 = Pen.fresh k.runes.length ((penOf s).total + (penOf s).announce g) := by
          rw [← hs1e]; exact penOf_next hk hsel
        have hlay : layOut g (padLengths g r s.keys) (penOf s) (c :: cs) =
            (layOut g (padLengths g r s1.keys) (penOf (afterChar U s1 c (if c ∈ secondLine then 1 else 0) i)) cs).map
              (fun l => ⟨decide ((penOf s).used + (penOf s).announce g ≤ (penOf s).len) && l.fits, l.letters, l.pads + 1⟩) := by
          rw [hpl, layOut.eq_def]
          dsimp only
          rw [if_pos hle, hpen, hfresh, ← hs1e]
          rfl
        have hkeys : (afterChar U s1 c (if c ∈ secondLine then 1 else 0) i).keys = s1.keys := rfl
        have hch1 : (afterChar U s1 c (if c ∈ secondLine then 1 else 0) i).chunks = s1.chunks := rfl
        rcases ih _ (hs1.char hf) hcs with ⟨h1, h2⟩ | ⟨b, s', more, h1, h2, h3, h4, h6, h7, h5⟩
        · left
          rw [hlay]
          rw [hkeys] at h1
          rw [h1]
          exact ⟨rfl, h2⟩
        · right
          rw [hkeys] at h1 h4 h5
          rw [hch1] at h3
          have hlen : ∀ q, keyLenAt s1.keys q = keyLenAt s.keys q := by rw [← hs1e]; exact fun q => keyLenAt_setUsed _ _ _ _
          refine ⟨⟨decide ((penOf s).used + (penOf s).announce g ≤ (penOf s).len) && b.fits, b.letters, b.pads + 1⟩, s', { s.cur with enc := s.cur.enc ++ sw s.st.table 1 ++ [89] ++ k.id.val } :: more, by rw [hlay, h1]; rfl, h2, ?_, fun q => (h4 q).trans (hlen q), by simp [h6], h7, ?_⟩
          · rw [h3, ← hs1e]; simp [nextOf]
          · simp only [Bool.and_eq_true, decide_eq_true_eq, h5, hlen, List.forall_mem_cons]
            rw [hann]
            simp only [and_assoc]
            rfl
    · have hle : ¬ (penOf s).len ≤ (penOf s).used + g + 2 := by
        rw [keyExhausted_iff hs] at hx
        simp only [penOf, capAt] at hx ⊢
        omega
      rw [encLoop_cons U hf hs (by rw [if_neg hx])]
      have hlay : layOut g (padLengths g r s.keys) (penOf s) (c :: cs) = layOut g (padLengths g r s.keys) (penOf (afterChar U s c (if c ∈ secondLine then 1 else 0) i)) cs := by
        rw [penOf_char (U := U) hs ht]
        rcases padLengths g r s.keys with _ | ⟨n, ps⟩ <;> rw [layOut.eq_def] <;> dsimp only <;> rw [if_neg hle]
      rw [hlay]
      exact ih _ (hs.char hf) hcs

/-- the enciphering of a message for which the key has to be chosen, after the choice -/
theorem encipher_auto {U : Unicode} (hU : U.Lawful) {noise : Nat → Rune} {f : Runes} {inst : Inst} {m : Msg}
    (hg : inst.groupSize ≠ 0) (hwf : WellFormed inst.keys)
    (hp : m.plainText ≠ []) (hid : m.keyId.val = []) (hct : m.cipherText = []) :
    (findKey U inst.groupSize inst.keys m.recipients = none → (encipher U noise f inst m).1 = .err .noKeyFound) ∧
    ∀ i k, findKey U inst.groupSize inst.keys m.recipients = some i → inst.keys[i]? = some k →
      ∀ o s, encLoop U inst.groupSize m.recipients m.plainText ⟨setUsed inst.keys i true, newState, [], ⟨[], i⟩⟩ = (o, s) →
        (o ≠ .ok () → (encipher U noise f inst m).1 = o) ∧
        (o = .ok () → (encipher U noise f inst m).1 = (cipherChunks s.keys (s.chunks ++ [{ s.cur with
          enc := s.cur.enc ++ List.replicate (padCount inst.groupSize (s.cur.enc.length + totalLength s.chunks)) 90 }])).1) := by
  obtain ⟨w1, w2, w3, w4⟩ := withId_fields f m
  have hen : enrichWithKey U f inst (withId f m) = match findKey U inst.groupSize inst.keys m.recipients with
      | none => (.err .noKeyFound, inst, withId f m)
      | some i => match inst.keys[i]? with
        | none => (.panic, inst, withId f m)
        | some k => (.ok (), { inst with keys := setUsed inst.keys i true }, { withId f m with keyId := k.id }) := by
    rw [enrich_withId]
    unfold enrichWithKey
    simp only
    rw [if_neg (by rw [w1]; simpa using hp), if_neg (by rw [w3, hid]; simp), if_neg (by rw [w4, hct]; simp),
      show findKey U inst.groupSize inst.keys (withId f m).recipients = findKey U inst.groupSize inst.keys m.recipients by rw [w2]]
    rfl
  constructor
  · intro hf
    unfold encipher encipherT
    simp only [hen, hf]
  · intro i k hf hk o s hl
    have hgk : getKey U (setUsed inst.keys i true) k.id.val = some i := by
      rw [getKey_congr U _ (setUsed_sameMat _ _ _).ids]; exact hwf.getKey hU hk
    unfold encipher encipherT
    simp only [hen, hf, hk, hgk, w1, w2, hl]
    constructor
    · intro ho
      rcases o with _ | _ | _
      · exact absurd rfl ho
      · rfl
      · rfl
    · rintro rfl
      simp only [if_neg hg, pad_eq]
      generalize s.chunks ++ _ = chs
      rcases hc : cipherChunks s.keys chs with ⟨_ | _ | _, out⟩ <;> rfl

theorem setUsed_unused {keys : List Key} {i : Nat} {k : Key} (hk : keys[i]? = some k) (hu : k.used = false) : setUsed keys i false = keys := by
  apply List.ext_getElem?
  intro j
  rw [setUsed_get]
  by_cases h : i = j
  · subst h
    rw [hk]
    simp only [Option.map_some, if_pos]
    rw [← hu]
  · rcases keys[j]? with _ | x <;> simp [h]

theorem presetCheck_named {keys : List Key} {i : Nat} {k : Key} (hd : (keys.map (fun k => k.id.val)).Nodup) (hk : keys[i]? = some k) (hu : k.used = false) (hc : k.compromised = false) :
    presetCheck k.id.val keys = .ok () := by
  induction keys generalizing i with
  | nil => simp at hk
  | cons x xs ih =>
    simp only [List.map_cons, List.nodup_cons] at hd
    rw [presetCheck]
    cases i with
    | zero =>
      simp only [List.getElem?_cons_zero, Option.some.injEq] at hk
      subst hk
      simp [(equalRunes_iff x.id.val x.id.val).2 rfl, hu, hc]
    | succ i =>
      simp only [List.getElem?_cons_succ] at hk
      have hne : x.id.val ≠ k.id.val := fun h => hd.1 (by rw [h]; exact List.mem_map_of_mem (f := fun k => k.id.val) (List.mem_of_getElem? hk))
      have : equalRunes (some x.id.val) (some k.id.val) = false := by
        cases hq : equalRunes (some x.id.val) (some k.id.val) with
        | false => rfl
        | true => exact absurd ((equalRunes_iff _ _).1 hq) hne
      rw [this]
      exact ih hd.2 hk

/-- the enciphering of a message that names its key -/
theorem encipher_named {U : Unicode} (hU : U.Lawful) {noise : Nat → Rune} {f : Runes} {inst : Inst} {m : Msg}
    (hg : inst.groupSize ≠ 0) (hwf : WellFormed inst.keys) (hp : m.plainText ≠ []) {i : Nat} {k : Key} (hk : inst.keys[i]? = some k) (hid : m.keyId.val = k.id.val)
    (hlen : k.id.val.length = inst.groupSize) (hu : k.used = false) (hc : k.compromised = false) {o : Outcome Unit} {s : LoopState}
    (hl : encLoop U inst.groupSize m.recipients m.plainText ⟨inst.keys, newState, [], ⟨[], i⟩⟩ = (o, s)) :
    (o ≠ .ok () → (encipher U noise f inst m).1 = o) ∧
    (o = .ok () → (encipher U noise f inst m).1 = (cipherChunks s.keys (s.chunks ++ [{ s.cur with
      enc := s.cur.enc ++ List.replicate (padCount inst.groupSize (s.cur.enc.length + totalLength s.chunks)) 90 }])).1) := by
  obtain ⟨w1, w2, w3, w4⟩ := withId_fields f m
  have hen : enrichWithKey U f inst (withId f m) = (.ok (), inst, withId f m) := by
    rw [enrich_withId]
    unfold enrichWithKey
    simp only
    rw [if_neg (by rw [w1]; simpa using hp), if_pos (by rw [w3, hid]; omega), if_neg (by rw [w3, hid]; simpa using hlen), w3, hid,
      presetCheck_named hwf.1 hk hu hc]
  have hgk : getKey U inst.keys (withId f m).keyId.val = some i := by rw [w3, hid]; exact hwf.getKey hU hk
  unfold encipher encipherT
  simp only [hen, hgk, w1, w2, hl]
  constructor
  · intro ho
    rcases o with _ | _ | _
    · exact absurd rfl ho
    · rfl
    · rfl
  · rintro rfl
    simp only [if_neg hg, pad_eq]
    generalize s.chunks ++ _ = chs
    rcases hc : cipherChunks s.keys chs with ⟨_ | _ | _, out⟩ <;> rfl

/-- what the loop and the enciphering after it come to -/
theorem layOut_outcome {U : Unicode} (hU : U.Lawful) {g : Nat} {r : List Runes} {text : Runes} {keys : List Key} {i : Nat} {b : Bool} {k : Key}
    (hids : ∀ k ∈ keys, ∀ c ∈ k.id.val, IsLetter c) (hkeys : ∀ k ∈ keys, ∀ c ∈ k.runes, IsLetter c) (hk : keys[i]? = some k) (hal : ∀ c ∈ text, c ∈ alphabet)
    {o res : Outcome Unit} {s : LoopState} (hl : encLoop U g r text ⟨setUsed keys i b, newState, [], ⟨[], i⟩⟩ = (o, s))
    (h1 : o ≠ .ok () → res = o)
    (h2 : o = .ok () → res = (cipherChunks s.keys (s.chunks ++ [{ s.cur with
      enc := s.cur.enc ++ List.replicate (padCount g (s.cur.enc.length + totalLength s.chunks)) 90 }])).1) :
    res = match layOut g (padLengths g r (setUsed keys i b)) (Pen.fresh k.runes.length 0) text with
      | none => .err .outOfKeys
      | some l => if l.fits then .ok () else .err .keyTooShort := by
  have hilt := (List.getElem?_eq_some_iff.1 hk).1
  have hpen : penOf ⟨setUsed keys i b, newState, [], ⟨[], i⟩⟩ = Pen.fresh k.runes.length 0 := by
    simp [penOf, Pen.fresh, keyLenAt_setUsed, keyLenAt_eq hk, totalLength, newState]
  rcases encLoop_layOut hU text _ (loopOk_start (setUsed keys i b) i) hal (g := g) (r := r) with
    ⟨a, c⟩ | ⟨l, s2, more, a, e, d, q, -, -, t⟩
  · rw [hpen] at a
    rw [a]
    rw [hl] at c
    simp only at c
    subst c
    exact h1 (by simp)
  · rw [hpen] at a
    rw [hl] at e
    simp only [Prod.mk.injEq] at e
    obtain ⟨rfl, rfl⟩ := e
    rw [a, h2 rfl]
    obtain ⟨_, c2, c3⟩ := chunks_ready hids hkeys hilt hl rfl rfl
      (cur := { s.cur with enc := s.cur.enc ++ List.replicate (padCount g (s.cur.enc.length + totalLength s.chunks)) 90 })
    obtain ⟨t1, t2⟩ := cipherChunks_total _ c2 _ c3
    simp only [List.nil_append] at d
    have hfit : l.fits = true ↔ ∀ ch ∈ s.chunks ++ [{ s.cur with enc := s.cur.enc ++ List.replicate (padCount g (s.cur.enc.length + totalLength s.chunks)) 90 }],
        ch.enc.length ≤ keyLenAt s.keys ch.key := by
      rw [t, ← d]
      simp only [List.forall_mem_append, List.forall_mem_singleton, List.length_append, List.length_replicate, q]
    dsimp only
    by_cases hb : l.fits = true
    · rw [if_pos hb]; exact t2 (hfit.1 hb)
    · rw [if_neg hb]
      refine t1.resolve_left (fun h => ?_)
      rcases hc : cipherChunks s.keys (s.chunks ++ [{ s.cur with enc := s.cur.enc ++ List.replicate (padCount g (s.cur.enc.length + totalLength s.chunks)) 90 }]) with ⟨o, out⟩
      rw [hc] at h
      simp only at h
      subst h
      have := (cipherChunks_spec _ _ _ hc).2.2
      refine hb (hfit.2 (fun ch hch => ?_))
      obtain ⟨k', hk', hle⟩ := this ch hch
      rw [keyLenAt_eq hk']; exact hle

end K431
