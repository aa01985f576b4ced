import Verif.SpecCipher
import Verif.EncFacts
import Verif.FunLemmas

/-!
# Lemmas about `Decipher` and `TryDecipherPlainText`
-/

namespace K431
open Spec

/-- What the loop of `Decipher` has done after the letters `consumed`. -/
def DInv (g : Nat) (keys : List Key) (i0 : Nat) (consumed : Runes) (d : DState) : Prop :=
  ∃ cs pre, cipherChunks keys (cs ++ [⟨pre ++ d.nextKey, d.key⟩]) = (.ok (), consumed) ∧
    d.stack = keysOf (cs ++ [⟨pre ++ d.nextKey, d.key⟩]) ∧ (pre ++ d.nextKey).length = d.ki ∧
    Announced g keys (cs ++ [⟨pre ++ d.nextKey, d.key⟩]) ∧ d.stack.head? = some i0 ∧
    d.nextKey.length < g ∧ d.st.table < 2 ∧ (∃ k, keys[d.key]? = some k) ∧
    (d.nextKey ≠ [] → d.st.keyChange = true)

theorem cipherChunks_snoc {keys : List Key} {cs : List Chunk} {enc : Runes} {i : Nat} {out : Runes} {k : Key}
    {kr e c : Rune} (h : cipherChunks keys (cs ++ [⟨enc, i⟩]) = (.ok (), out)) (hk : keys[i]? = some k)
    (hr : k.runes[enc.length]? = some kr) (ht : Trigraph kr e c) :
    cipherChunks keys (cs ++ [⟨enc ++ [e], i⟩]) = (.ok (), out ++ [c]) := by
  obtain ⟨o1, o2, h1, h2, rfl⟩ := (cipherChunks_append _ _ _ _).1 h
  obtain ⟨k', hk', hl, h3⟩ := (cipherChunks_one _ _ _).1 h2
  simp only at hk' hl h3
  rw [hk] at hk'; cases hk'
  obtain ⟨a, b, c'⟩ := (cipherChunk_ok _ _ _).1 h3
  refine (cipherChunks_append _ _ _ _).2 ⟨o1, o2 ++ [c], h1, ?_, by simp⟩
  have hlt : enc.length < k.runes.length := (List.getElem?_eq_some_iff.1 hr).1
  refine (cipherChunks_one _ _ _).2 ⟨k, hk, by simp; omega, (cipherChunk_ok _ _ _).2 ⟨by simp; omega, by simp [b], ?_⟩⟩
  intro n x y z hx hy hz
  simp only at hy
  by_cases hn : n < enc.length
  · rw [List.getElem?_append_left hn] at hy
    rw [List.getElem?_append_left (by omega)] at hz
    exact c' n x y z hx hy hz
  · by_cases hn2 : n = enc.length
    · subst hn2
      rw [List.getElem?_append_right (by omega)] at hy
      rw [List.getElem?_append_right (by omega), b] at hz
      simp at hy hz
      subst hy; subst hz
      rw [hr] at hx; cases hx
      exact ht
    · rw [List.getElem?_eq_none (by simp; omega)] at hy; cases hy

theorem Announced.last {g : Nat} {keys : List Key} {cs : List Chunk} {a : Chunk} (enc : Runes)
    (h : Announced g keys (cs ++ [a])) : Announced g keys (cs ++ [⟨enc, a.key⟩]) := by
  intro n x y hx hy
  have hn : n + 1 ≤ cs.length := by
    have := (List.getElem?_eq_some_iff.1 hy).1
    simp at this; omega
  rw [List.getElem?_append_left (by omega)] at hx
  by_cases hn2 : n + 1 < cs.length
  · rw [List.getElem?_append_left hn2] at hy
    exact h n x y (by rw [List.getElem?_append_left (by omega)]; exact hx) (by rw [List.getElem?_append_left hn2]; exact hy)
  · have he : n + 1 = cs.length := by omega
    rw [List.getElem?_append_right (by omega), he] at hy
    simp at hy
    obtain ⟨p, k, h1, h2, h3⟩ := h n x a (by rw [List.getElem?_append_left (by omega)]; exact hx)
      (by rw [he]; simp)
    exact ⟨p, k, h1, h2, by rw [← hy]; exact h3⟩

theorem Announced.snoc {g : Nat} {keys : List Key} {cs : List Chunk} {a : Chunk} {pre : Runes} {k : Key} {j : Nat}
    (h : Announced g keys (cs ++ [a])) (he : a.enc = pre ++ k.id.val) (hl : k.id.val.length = g)
    (hk : keys[j]? = some k) : Announced g keys (cs ++ [a] ++ [⟨[], j⟩]) := by
  intro n x y hx hy
  have hn : n + 1 ≤ cs.length + 1 := by
    have := (List.getElem?_eq_some_iff.1 hy).1
    simp at this; omega
  by_cases hn2 : n + 1 < (cs ++ [a]).length
  · rw [List.getElem?_append_left hn2] at hy
    rw [List.getElem?_append_left (by omega)] at hx
    exact h n x y hx hy
  · simp at hn2
    have he2 : n = cs.length := by omega
    subst he2
    simp at hx hy
    subst hx; subst hy
    exact ⟨pre, k, he, hl, hk⟩

theorem cipherChunks_empty {keys : List Key} {cs : List Chunk} {out : Runes} {k : Key} {j : Nat}
    (h : cipherChunks keys cs = (.ok (), out)) (hk : keys[j]? = some k) :
    cipherChunks keys (cs ++ [⟨[], j⟩]) = (.ok (), out) :=
  (cipherChunks_append _ _ _ _).2 ⟨out, [], h, (cipherChunks_one _ _ _).2 ⟨k, hk, by simp, by cases k.runes <;> rfl⟩, by simp⟩

theorem DInv.start (g : Nat) (hg : g ≠ 0) (keys : List Key) (i : Nat) (k : Key) (hk : keys[i]? = some k) :
    DInv g keys i [] ⟨i, 0, [], newState, [i], []⟩ := by
  refine ⟨[], [], ?_, rfl, rfl, ?_, rfl, by simp; omega, by simp [newState], ⟨k, hk⟩, by simp⟩
  · exact cipherChunks_empty (cs := []) rfl hk
  · intro n a b ha hb
    simp at hb

theorem decStep_inv {U : Unicode} (hU : U.Lawful) {g : Nat} {keys : List Key} {i0 : Nat} {consumed : Runes} {d : DState}
    (h : DInv g keys i0 consumed d) (c : Rune) :
    decStep U g keys d c ≠ .panic ∧
    ∀ d', decStep U g keys d c = .ok d' → DInv g keys i0 (consumed ++ [c]) d' := by
  obtain ⟨cs, pre, h1, h2, h3, h4, h5, h6, h7, ⟨k, hk⟩, h8⟩ := h
  unfold decStep
  rw [hk]
  simp only
  by_cases hki : d.ki ≥ k.runes.length
  · rw [if_pos hki]; exact ⟨by simp, by simp⟩
  rw [if_neg hki]
  have hr : k.runes[d.ki]? = some (k.runes[d.ki]'(by omega)) := List.getElem?_eq_getElem _
  generalize k.runes[d.ki]'(by omega) = kr at hr
  rw [hr]
  simp only
  rcases ht : trigraph kr c with e | x | _
  rotate_left
  · exact ⟨by simp, by simp⟩
  · exact absurd ht (trigraph_not_panic _ _)
  have htri0 := (trigraph_ok_iff _ _ _).1 ht
  have htri : Trigraph kr e c := by
    obtain ⟨a, b, c', d'⟩ := htri0
    exact ⟨a, c', b, by omega⟩
  simp only
  obtain ⟨hnp, hok⟩ := decodeCharacter_safe U hU d.st h7 e d.plain
  rcases hd : decodeCharacter U d.st e d.plain with ⟨st1, p1⟩ | x | _
  rotate_left
  · exact ⟨by simp, by simp⟩
  · exact absurd hd hnp
  obtain ⟨htab, hx, _⟩ := hok st1 p1 hd
  simp only
  have hsn := cipherChunks_snoc h1 hk (by rw [h3]; exact hr) htri
  by_cases hkc : st1.keyChange = true
  · rw [if_pos hkc]
    by_cases hlen : (d.nextKey ++ [e]).length ≥ g
    · rw [if_pos hlen]
      rcases hgk : getKey U keys (d.nextKey ++ [e]) with _ | j
      · exact ⟨by simp, by simp⟩
      · refine ⟨by simp, ?_⟩
        intro d' hd'
        cases hd'
        obtain ⟨kj, hkj, hname, _⟩ := getKey_some hgk
        have hlet : ∀ x ∈ d.nextKey ++ [e], IsLetter x := by
          obtain ⟨o1, o2, _, g2, _⟩ := (cipherChunks_append _ _ _ _).1 hsn
          obtain ⟨k', hk', hl', g3⟩ := (cipherChunks_one _ _ _).1 g2
          simp only at hk' hl' g3
          obtain ⟨u1, u2, u3⟩ := (cipherChunk_ok _ _ _).1 g3
          intro x hx
          obtain ⟨n, hn⟩ := List.mem_iff_getElem?.1 (show x ∈ pre ++ d.nextKey ++ [e] by
            rw [List.append_assoc]; exact List.mem_append_right _ hx)
          have hnl := (List.getElem?_eq_some_iff.1 hn).1
          exact (u3 n _ x _ (List.getElem?_eq_getElem (by omega)) hn (List.getElem?_eq_getElem (by omega))).2.1
        rw [lookupName_letters hU hlet, goStr_eq_letters hlet] at hname
        have hl2 : kj.id.val.length = g := by rw [hname]; simp at hlen ⊢; omega
        refine ⟨cs ++ [⟨pre ++ (d.nextKey ++ [e]), d.key⟩], [], ?_, ?_, rfl, ?_, ?_, by simp; omega, by simp [newState], ⟨kj, hkj⟩, by simp⟩
        · rw [List.append_assoc] at hsn
          exact cipherChunks_empty hsn hkj
        · simp only [h2, keysOf, List.map_append, List.map_cons, List.map_nil]
        · exact Announced.snoc (pre := pre) (h4.last (pre ++ (d.nextKey ++ [e]))) (by simp [hname]) hl2 hkj
        · simp only [List.head?_append, h5]; rfl
    · rw [if_neg hlen]
      refine ⟨by simp, ?_⟩
      intro d' hd'
      cases hd'
      refine ⟨cs, pre, ?_, ?_, ?_, ?_, h5, by simp only; omega, htab, ⟨k, hk⟩, fun _ => hkc⟩
      · simp only; rw [← List.append_assoc]; exact hsn
      · simp only [h2, keysOf, List.map_append, List.map_cons, List.map_nil]
      · simp at h3 ⊢; omega
      · exact h4.last _
  · rw [if_neg hkc]
    refine ⟨by simp, ?_⟩
    intro d' hd'
    cases hd'
    have hkf := (decodeCharacter_mono U _ _ _ _ _ hd (by simpa using hkc)).1
    have hnk : d.nextKey = [] := by
      rcases hn : d.nextKey with _ | ⟨x, xs⟩
      · rfl
      · rw [h8 (by simp [hn])] at hkf; cases hkf
    refine ⟨cs, pre ++ [e], ?_, ?_, ?_, ?_, h5, h6, htab, ⟨k, hk⟩, ?_⟩
    · simp only [hnk, List.append_nil] at hsn ⊢; exact hsn
    · simp only [h2, keysOf, List.map_append, List.map_cons, List.map_nil]
    · simp [hnk] at h3 ⊢; omega
    · exact h4.last _
    · intro hne; exact absurd hnk hne

theorem decLoop_inv {U : Unicode} (hU : U.Lawful) {g : Nat} {keys : List Key} {i0 : Nat} :
    ∀ (cipher consumed : Runes) (d : DState), DInv g keys i0 consumed d →
      (decLoop U g keys cipher d).1 ≠ .panic ∧
      ∀ d' p, decLoop U g keys cipher d = (.ok d', p) → DInv g keys i0 (consumed ++ cipher) d' := by
  intro cipher
  induction cipher with
  | nil =>
    intro consumed d h
    simp only [decLoop]
    refine ⟨by simp, ?_⟩
    intro d' p hd
    simp only [Prod.mk.injEq, Outcome.ok.injEq] at hd
    rw [← hd.1, List.append_nil]; exact h
  | cons c cs ih =>
    intro consumed d h
    obtain ⟨a, b⟩ := decStep_inv (U := U) hU h c
    simp only [decLoop]
    rcases hd : decStep U g keys d c with d1 | e | _
    · obtain ⟨x, y⟩ := ih _ _ (b d1 hd)
      refine ⟨x, ?_⟩
      intro d' p hp
      have := y d' p hp
      rwa [List.append_assoc] at this
    · exact ⟨by simp, by simp⟩
    · exact absurd hd a

/-- marking a stack of keys -/
theorem foldl_setUsed (stack : List Nat) : ∀ keys : List Key, ∀ j : Nat,
    (stack.foldl (fun ks j => setUsed ks j true) keys)[j]? =
      (keys[j]?).map (fun k => { k with used := k.used || decide (j ∈ stack) }) := by
  induction stack with
  | nil =>
    intro keys j
    rw [List.foldl_nil]
    generalize keys[j]? = o
    cases o <;> simp
  | cons i is ih =>
    intro keys j
    rw [List.foldl_cons, ih, setUsed_get]
    rcases keys[j]? with _ | k
    · rfl
    · by_cases h : i = j
      · subst h; simp
      · have : ¬ j = i := fun e => h e.symm
        simp [h, this]

theorem foldl_setUsed_length (stack : List Nat) : ∀ keys : List Key,
    (stack.foldl (fun ks j => setUsed ks j true) keys).length = keys.length := by
  induction stack with
  | nil => intro keys; rfl
  | cons i is ih => intro keys; rw [List.foldl_cons, ih, setUsed_length]

theorem decipher_fail {U : Unicode} {f : Runes} {inst inst' : Inst} {m m' : Msg} {o : Outcome Unit}
    (h : decipher U f inst m = (o, inst', m')) :
    (o ≠ .ok () → inst' = inst) ∧ m' = { withId f m with plainText := m'.plainText } ∧
    ∃ keys', inst' = { inst with keys := keys' } := by
  unfold decipher at h
  simp only at h
  repeat' split at h
  all_goals
    simp only [Prod.mk.injEq] at h
    obtain ⟨rfl, rfl, rfl⟩ := h
    refine ⟨?_, rfl, _, rfl⟩
    intro hne
    first | rfl | exact absurd rfl hne

theorem filterText_iff (U : Unicode) : ∀ (text w : Runes), filterText U text = some w ↔ LettersOf U text w := by
  intro text
  induction text with
  | nil => intro w; simp only [filterText, LettersOf, Option.some.injEq]; exact ⟨fun h => ⟨by simp, h.symm⟩, fun h => h.2.symm⟩
  | cons c cs ih =>
    intro w
    simp only [filterText]
    by_cases h1 : (U.isSpace c || c == 61) = true
    · rw [if_pos h1, ih]
      simp only [LettersOf]
      have h1' : ¬ (!(U.isSpace c || c == 61)) = true := by rw [h1]; decide
      have h2 : U.isSpace c = true ∨ c = 61 := by simpa using h1
      constructor
      · rintro ⟨a, b⟩
        refine ⟨?_, by rw [b]; simp only [List.filter_cons, h1', Bool.false_eq_true, if_false]⟩
        intro x hx
        rcases List.mem_cons.1 hx with rfl | hx
        · rcases h2 with h2 | h2 <;> simp [h2]
        · exact a x hx
      · rintro ⟨a, b⟩
        exact ⟨fun x hx => a x (by simp [hx]), by rw [b]; simp only [List.filter_cons, h1', Bool.false_eq_true, if_false]⟩
    · rw [if_neg h1]
      have h1' : (!(U.isSpace c || c == 61)) = true := by simpa using h1
      have h3 : ¬ U.isSpace c = true ∧ ¬ c = 61 := by
        constructor <;> intro h <;> apply h1 <;> simp [h]
      by_cases h2 : 65 ≤ U.toUpper c ∧ U.toUpper c ≤ 90
      · rw [if_pos h2]
        rcases hf : filterText U cs with _ | r
        · simp only [reduceCtorEq, false_iff]
          rintro ⟨a, b⟩
          have := (ih _).2 ⟨fun x hx => a x (by simp [hx]), rfl⟩
          rw [hf] at this; cases this
        · simp only [Option.some.injEq]
          obtain ⟨p, q⟩ := (ih r).1 hf
          constructor
          · rintro rfl
            refine ⟨?_, by rw [q]; simp only [List.filter_cons, h1', if_true, List.map_cons]⟩
            intro x hx
            rcases List.mem_cons.1 hx with rfl | hx
            · exact .inr (.inr h2)
            · exact p x hx
          · rintro ⟨_, b⟩
            rw [b, q]; simp only [List.filter_cons, h1', if_true, List.map_cons]
      · rw [if_neg h2]
        simp only [reduceCtorEq, false_iff]
        rintro ⟨a, _⟩
        rcases a c (by simp) with h | h | h
        · exact h3.1 h
        · exact h3.2 h
        · exact h2 h

theorem LettersOf.letters {U : Unicode} {text w : Runes} (h : LettersOf U text w) : ∀ c ∈ w, IsLetter c := by
  intro c hc
  obtain ⟨a, b⟩ := h
  rw [b] at hc
  obtain ⟨x, hx, rfl⟩ := List.mem_map.1 hc
  obtain ⟨hx1, hx2⟩ := List.mem_filter.1 hx
  rcases a x hx1 with h | h | h
  · simp [h] at hx2
  · simp [h] at hx2
  · exact h

theorem LettersOf.take_letters {U : Unicode} {text w : Runes} (h : LettersOf U text w) (n : Nat) :
    ∀ c ∈ w.take n, IsLetter c := fun c hc => h.letters c (List.mem_of_mem_take hc)

theorem LettersOf.append {U : Unicode} {a b w v : Runes} (h : LettersOf U a w) (h' : LettersOf U b v) :
    LettersOf U (a ++ b) (w ++ v) := by
  refine ⟨?_, by rw [h.2, h'.2, List.filter_append, List.map_append]⟩
  intro c hc
  rcases List.mem_append.1 hc with hc | hc
  · exact h.1 c hc
  · exact h'.1 c hc

theorem LettersOf.of_letters {U : Unicode} (hU : U.Lawful) {w : Runes} (h : ∀ c ∈ w, IsLetter c) :
    LettersOf U w w := by
  refine ⟨fun c hc => .inr (.inr (by rw [toUpper_letter hU (h c hc)]; exact h c hc)), ?_⟩
  have h1 : w.filter (fun c => !(U.isSpace c || c == 61)) = w := by
    apply List.filter_eq_self.2
    intro c hc
    have h2 := isSpace_letter hU (h c hc)
    have h3 : c ≠ 61 := by have := h c hc; unfold IsLetter at this; omega
    simp [h2, h3]
  rw [h1]
  conv => lhs; rw [← List.map_id w]
  exact List.map_congr_left (fun c hc => (toUpper_letter hU (h c hc)).symm)

theorem LettersOf.of_blanks {U : Unicode} {w : Runes} (h : ∀ c ∈ w, U.isSpace c = true) :
    LettersOf U w [] := by
  refine ⟨fun c hc => .inl (h c hc), ?_⟩
  have h1 : w.filter (fun c => !(U.isSpace c || c == 61)) = [] := by
    apply List.filter_eq_nil_iff.2
    intro c hc
    simp [h c hc]
  rw [h1]; rfl

theorem LettersOf.join {U : Unicode} {sep : Runes} (hs : ∀ c ∈ sep, U.isSpace c = true) {α : Type} (a b : α → Runes) :
    ∀ l : List α, (∀ g ∈ l, LettersOf U (a g) (b g)) → LettersOf U (joinWith sep (l.map a)) (l.map b).flatten := by
  intro l
  induction l with
  | nil => intro _; exact LettersOf.of_blanks (by simp [joinWith])
  | cons g l ih =>
    intro h
    have hg := h g (by simp)
    have hl := ih (fun x hx => h x (by simp [hx]))
    cases l with
    | nil => simpa [joinWith] using hg
    | cons g2 l2 =>
      rw [List.map_cons, joinWith_cons _ _ _ (by simp), List.map_cons (f := b), List.flatten_cons]
      have := (hg.append (LettersOf.of_blanks hs)).append hl
      simpa using this

/-- the message `TryDecipherPlainText` hands to `Decipher` -/
def tryMsg (f : Runes) (inst : Inst) (m : Msg) (k : Key) (w : Runes) : Msg :=
  { withId f m with keyId := ⟨inst.nextAddr, k.id.val⟩, cipherText := w.drop inst.groupSize }

theorem tryDecipher_run {U : Unicode} {f : Runes} {inst : Inst} {m : Msg} {w : Runes} {i : Nat} {k : Key}
    (h0 : m.keyId.val = []) (h1 : filterText U m.plainText = some w) (h2 : inst.groupSize * 2 ≤ w.length)
    (h3 : getKey U inst.keys (w.take inst.groupSize) = some i) (h4 : inst.keys[i]? = some k) :
    tryDecipher U f false inst m =
      match decipher U f { inst with nextAddr := inst.nextAddr + 1 } (tryMsg f inst m k w) with
      | (.ok _, inst2, m2) => (.ok (), inst2, m2)
      | (.err _, inst2, m2) => (.err .notCipherText, inst2,
          { m2 with keyId := Sl.nil, plainText := m.plainText, cipherText := m.cipherText })
      | (.panic, inst2, m2) => (.panic, inst2,
          { m2 with keyId := Sl.nil, plainText := m.plainText, cipherText := m.cipherText }) := by
  obtain ⟨w1, w2, w3, w4⟩ := withId_fields f m
  unfold tryDecipher
  simp only
  rw [if_neg (by rw [w3, h0]; simp), w1, h1]
  simp only
  rw [if_neg (by omega), h3]
  simp only [Bool.false_eq_true, if_false]
  rw [h4]
  simp only [w4, tryMsg, w1]
  rfl

theorem tryDecipher_ok {U : Unicode} {f : Runes} {inst inst' : Inst} {m m' : Msg}
    (h : tryDecipher U f false inst m = (.ok (), inst', m')) :
    m.keyId.val = [] ∧ ∃ w i k, filterText U m.plainText = some w ∧ inst.groupSize * 2 ≤ w.length ∧
      getKey U inst.keys (w.take inst.groupSize) = some i ∧ inst.keys[i]? = some k ∧
      decipher U f { inst with nextAddr := inst.nextAddr + 1 } (tryMsg f inst m k w) = (.ok (), inst', m') := by
  have h' := h
  obtain ⟨w1, w2, w3, w4⟩ := withId_fields f m
  unfold tryDecipher at h
  simp only at h
  by_cases c1 : (withId f m).keyId.val.length > 0
  · rw [if_pos c1] at h; cases h
  rw [if_neg c1, w1] at h
  have h0 : m.keyId.val = [] := List.length_eq_zero_iff.1 (by rw [w3] at c1; omega)
  rcases h1 : filterText U m.plainText with _ | w
  · rw [h1] at h; cases h
  rw [h1] at h
  simp only at h
  by_cases c2 : w.length < inst.groupSize * 2
  · rw [if_pos c2] at h; cases h
  rw [if_neg c2] at h
  rcases h3 : getKey U inst.keys (w.take inst.groupSize) with _ | i
  · rw [h3] at h; cases h
  obtain ⟨k, h4, _⟩ := getKey_some h3
  rw [tryDecipher_run h0 h1 (by omega) h3 h4] at h'
  refine ⟨h0, w, i, k, rfl, by omega, h3, h4, ?_⟩
  rcases hd : decipher U f { inst with nextAddr := inst.nextAddr + 1 } (tryMsg f inst m k w) with ⟨o1 | e | _, i1, m1⟩
  · rw [hd] at h'; simpa using h'
  · rw [hd] at h'; simp at h'
  · rw [hd] at h'; simp at h'

end K431
