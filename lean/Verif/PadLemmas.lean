import Verif.FaceLemmas
import Verif.SecrecyLemmas
import Verif.PropsCipher

/-! # Helper lemmas: counting the letters of keys that turn given texts into given ciphertexts -/

namespace K431
open Spec

theorem letterStrings_card (n : Nat) : {w : Runes | LetterString n w}.ncard = 26 ^ n := by
  have : {w : Runes | LetterString n w} = ((allWords n).toFinset : Set Runes) := by
    ext w
    simp [mem_allWords, LetterString]
  rw [this, Set.ncard_coe_finset, List.toFinset_card_of_nodup (nodup_allWords n), length_allWords]

theorem letterStrings_finite (n : Nat) : {w : Runes | LetterString n w}.Finite := by
  have : {w : Runes | LetterString n w} = ((allWords n).toFinset : Set Runes) := by
    ext w
    simp [mem_allWords, LetterString]
  rw [this]; exact Finset.finite_toSet _

/-- strings of letters with a given beginning -/
theorem startingWith_card {L : Nat} {n : Runes} (hn : ∀ c ∈ n, IsLetter c) (hl : n.length ≤ L) :
    {w : Runes | LetterString L w ∧ n <+: w}.ncard = 26 ^ (L - n.length) := by
  have : {w : Runes | LetterString L w ∧ n <+: w} = (fun w => n ++ w) '' {w : Runes | LetterString (L - n.length) w} := by
    ext w
    simp only [Set.mem_ofPred_eq, Set.mem_image]
    constructor
    · rintro ⟨⟨h1, h2⟩, t, rfl⟩
      refine ⟨t, ⟨by simp at h1; omega, fun c hc => h2 c (by simp [hc])⟩, rfl⟩
    · rintro ⟨t, ⟨h1, h2⟩, rfl⟩
      refine ⟨⟨by simp; omega, ?_⟩, ⟨t, rfl⟩⟩
      intro c hc
      rcases List.mem_append.1 hc with hc | hc
      · exact hn c hc
      · exact h2 c hc
  rw [this, Set.ncard_image_of_injective _ (fun a b h => by simpa using h), letterStrings_card]

/-- lists of strings with given lengths and beginnings -/
theorem fitting_card : ∀ {keys : List Key} {ns : List Runes}, List.Forall₂ (fun k n => (∀ c ∈ n, IsLetter c) ∧ n.length ≤ k.runes.length) keys ns →
    {pads | pads ∈ PadsFor keys ∧ List.Forall₂ (fun n w => n <+: w) ns pads}.ncard * 26 ^ (ns.map List.length).sum =
      26 ^ (keys.map (fun k => k.runes.length)).sum := by
  intro keys ns h
  induction h with
  | nil =>
    have : {pads : List Runes | pads ∈ PadsFor [] ∧ List.Forall₂ (fun n w => n <+: w) [] pads} = {[]} := by
      ext pads
      simp [PadsFor]
    rw [this]
    simp
  | @cons k n keys ns hx hs ih =>
    have : {pads : List Runes | pads ∈ PadsFor (k :: keys) ∧ List.Forall₂ (fun n w => n <+: w) (n :: ns) pads} =
        (fun p : Runes × List Runes => p.1 :: p.2) '' ({w : Runes | LetterString k.runes.length w ∧ n <+: w} ×ˢ
          {pads | pads ∈ PadsFor keys ∧ List.Forall₂ (fun n w => n <+: w) ns pads}) := by
      ext pads
      simp only [Set.mem_ofPred_eq, Set.mem_image, Set.mem_prod, PadsFor]
      constructor
      · rintro ⟨h1, h2⟩
        cases h1 with
        | cons a b => cases h2 with
          | cons c d => exact ⟨(_, _), ⟨⟨a, c⟩, b, d⟩, rfl⟩
      · rintro ⟨⟨w, ws⟩, ⟨⟨a, c⟩, b, d⟩, rfl⟩
        exact ⟨.cons a b, .cons c d⟩
    rw [this, Set.ncard_image_of_injective _ (fun a b h => by
      simp only [List.cons.injEq] at h
      exact Prod.ext h.1 h.2), Set.ncard_prod, startingWith_card hx.1 hx.2]
    simp only [List.map_cons, List.sum_cons, pow_add]
    rw [← ih]
    have : (26 : Nat) ^ k.runes.length = 26 ^ (k.runes.length - n.length) * 26 ^ n.length := by
      rw [← pow_add]; congr 1; omega
    rw [this]
    simp only [Nat.mul_assoc, Nat.mul_left_comm]

theorem sum_empty (keys : List Key) : ((keys.map (fun _ => ([] : Runes))).map List.length).sum = 0 := by
  induction keys with
  | nil => rfl
  | cons k ks ih => simp only [List.map_cons, List.sum_cons, List.length_nil, ih]

theorem PadsFor_card (keys : List Key) : (PadsFor keys).ncard = 26 ^ (keys.map (fun k => k.runes.length)).sum := by
  have h := fitting_card (keys := keys) (ns := keys.map (fun _ => [])) (by
    rw [List.forall₂_map_right_iff]
    exact List.forall₂_same.2 (fun k _ => by simp))
  have e : {pads | pads ∈ PadsFor keys ∧ List.Forall₂ (fun n w => n <+: w) (keys.map (fun _ => ([] : Runes))) pads} = PadsFor keys := by
    ext pads
    simp only [Set.mem_ofPred_eq, and_iff_left_iff_imp]
    intro hp
    rw [List.forall₂_map_left_iff]
    exact List.Forall₂.imp (fun _ _ _ => List.nil_prefix) hp
  rw [e] at h
  rw [← h]
  have : ((keys.map (fun _ => ([] : Runes))).map List.length).sum = 0 := by
    exact sum_empty keys
  rw [this]; simp

/-! ## which letters -/

theorem withPads_get {keys : List Key} {pads : List Runes} {i : Nat} {k : Key} (hp : pads ∈ PadsFor keys) (hk : keys[i]? = some k) :
    ∃ w, pads[i]? = some w ∧ LetterString k.runes.length w ∧ (withPads keys pads)[i]? = some { k with runes := w } := by
  unfold PadsFor at hp
  simp only [Set.mem_ofPred_eq] at hp
  induction hp generalizing i with
  | nil => simp at hk
  | cons h _ ih =>
    cases i with
    | zero => simp at hk; subst hk; exact ⟨_, rfl, h, rfl⟩
    | succ i =>
      obtain ⟨w, h1, h2, h3⟩ := ih (by simpa using hk)
      exact ⟨w, by simpa using h1, h2, by simpa [withPads] using h3⟩

/-- a key enciphers a text to a ciphertext if and only if it begins with the right letters -/
theorem cipherChunk_prefix {es c : Runes} (he : ∀ x ∈ es, IsLetter x) (hc : ∀ x ∈ c, IsLetter x) (hl : es.length = c.length) :
    ∃ n, (∀ x ∈ n, IsLetter x) ∧ n.length = es.length ∧ ∀ w, cipherChunk w es = (.ok (), c) ↔ n <+: w := by
  obtain ⟨n, ⟨h1, h2, h3⟩, h4⟩ := C04_perfect_secrecy es c he hc hl
  refine ⟨n, h2, h1, ?_⟩
  intro w
  constructor
  · intro h
    obtain ⟨a1, a2, a3⟩ := (cipherChunk_ok _ _ _).1 h
    have : w.take es.length = n := by
      refine h4 _ (by simp [a1]) ((cipherChunk_ok _ _ _).2 ⟨by simp [a1], a2, ?_⟩)
      intro i k e z b1 b2 b3
      rw [List.getElem?_take] at b1
      split at b1
      · exact a3 i k e z b1 b2 b3
      · cases b1
    rw [← this]; exact List.take_prefix _ _
  · rintro ⟨t, rfl⟩
    obtain ⟨a1, a2, a3⟩ := (cipherChunk_ok _ _ _).1 h3
    refine (cipherChunk_ok _ _ _).2 ⟨by simp; omega, a2, ?_⟩
    intro i k e z b1 b2 b3
    have : i < n.length := by
      have := (List.getElem?_eq_some_iff.1 b2).1
      omega
    rw [List.getElem?_append_left this] at b1
    exact a3 i k e z b1 b2 b3

theorem sum_set {ns : List Runes} {i : Nat} {u : Runes} (h : ns[i]? = some []) : ((ns.set i u).map List.length).sum = (ns.map List.length).sum + u.length := by
  induction ns generalizing i with
  | nil => simp at h
  | cons n ns ih =>
    cases i with
    | zero => simp at h; subst h; simp; omega
    | succ i => simp only [List.set_cons_succ, List.map_cons, List.sum_cons, ih (i := i) (by simpa using h)]; omega

theorem fits_set {ns pads : List Runes} {i : Nat} {u : Runes} (h : ns[i]? = some []) :
    List.Forall₂ (fun n w => n <+: w) (ns.set i u) pads ↔ List.Forall₂ (fun n w => n <+: w) ns pads ∧ ∀ w, pads[i]? = some w → u <+: w := by
  induction ns generalizing i pads with
  | nil => simp at h
  | cons n ns ih =>
    cases pads with
    | nil => cases i <;> simp
    | cons w ws =>
      cases i with
      | zero =>
        simp at h
        subst h
        simp only [List.set_cons_zero, List.forall₂_cons, List.getElem?_cons_zero, Option.some.injEq, forall_eq', List.nil_prefix, true_and]
        exact and_comm
      | succ i =>
        simp only [List.set_cons_succ, List.forall₂_cons, List.getElem?_cons_succ, ih (by simpa using h)]
        exact and_assoc.symm

theorem keys_set {keys : List Key} {ns : List Runes} {i : Nat} {u : Runes} {R : Key → Runes → Prop} (h : List.Forall₂ R keys ns)
    (hu : ∀ k, keys[i]? = some k → R k u) : List.Forall₂ R keys (ns.set i u) := by
  induction h generalizing i with
  | nil => simp
  | cons hx hs ih =>
    cases i with
    | zero => exact .cons (hu _ rfl) hs
    | succ i => exact .cons hx (ih (fun k hk => hu k (by simpa using hk)))

/-- What the letters of the keys must begin with so that the parts become the ciphertext. -/
theorem needed {keys : List Key} : ∀ {chunks : List Chunk} {c : Runes}, (keysOf chunks).Nodup →
    (∀ ch ∈ chunks, (∀ x ∈ ch.enc, IsLetter x) ∧ ∃ k, keys[ch.key]? = some k ∧ ch.enc.length ≤ k.runes.length) →
    (∀ x ∈ c, IsLetter x) → c.length = totalLength chunks →
    ∃ ns, List.Forall₂ (fun k n => (∀ x ∈ n, IsLetter x) ∧ n.length ≤ k.runes.length) keys ns ∧
      (∀ j < keys.length, j ∉ keysOf chunks → ns[j]? = some []) ∧ (ns.map List.length).sum = c.length ∧
      ∀ pads ∈ PadsFor keys, (cipherChunks (withPads keys pads) chunks = (.ok (), c) ↔ List.Forall₂ (fun n w => n <+: w) ns pads) := by
  intro chunks
  induction chunks with
  | nil =>
    intro c _ _ _ hl
    have : c = [] := List.length_eq_zero_iff.1 hl
    subst this
    refine ⟨keys.map (fun _ => []), ?_, ?_, ?_, ?_⟩
    · rw [List.forall₂_map_right_iff]
      exact List.forall₂_same.2 (fun k _ => by simp)
    · intro j hj _
      rw [List.getElem?_map, List.getElem?_eq_getElem hj]; rfl
    · exact sum_empty keys
    · intro pads hp
      simp only [cipherChunks, true_iff]
      rw [List.forall₂_map_left_iff]
      exact List.Forall₂.imp (fun _ _ _ => List.nil_prefix) hp
  | cons ch chs ih =>
    intro c hnd hch hc hl
    have htl : totalLength (ch :: chs) = ch.enc.length + totalLength chs := rfl
    have hnd' : ch.key ∉ keysOf chs ∧ (keysOf chs).Nodup := by simpa [keysOf] using hnd
    obtain ⟨he, k, hk, hle⟩ := hch ch (by simp)
    obtain ⟨ns, h1, h2, h3, h4⟩ := ih (c := c.drop ch.enc.length) hnd'.2 (fun x hx => hch x (by simp [hx])) (fun x hx => hc x (List.mem_of_mem_drop hx))
      (by rw [List.length_drop]; omega)
    obtain ⟨n, p1, p2, p3⟩ := cipherChunk_prefix (c := c.take ch.enc.length) he (fun x hx => hc x (List.mem_of_mem_take hx)) (by rw [List.length_take]; omega)
    have hkl : ch.key < keys.length := (List.getElem?_eq_some_iff.1 hk).1
    have hempty := h2 ch.key hkl hnd'.1
    refine ⟨ns.set ch.key n, keys_set h1 ?_, ?_, ?_, ?_⟩
    · intro k' hk'
      rw [hk] at hk'
      cases hk'
      exact ⟨p1, by omega⟩
    · intro j hj hjn
      have hjn' : j ≠ ch.key ∧ j ∉ keysOf chs := by simpa [keysOf] using hjn
      rw [List.getElem?_set_ne (Ne.symm hjn'.1)]
      exact h2 j hj hjn'.2
    · rw [sum_set hempty, h3, p2, List.length_drop]; omega
    · intro pads hp
      obtain ⟨w, w1, w2, w3⟩ := withPads_get hp hk
      rw [fits_set hempty, ← h4 pads hp, ← List.singleton_append, cipherChunks_append]
      constructor
      · rintro ⟨o1, o2, q1, q2, rfl⟩
        obtain ⟨l, l1, l2, l3⟩ := (cipherChunks_one _ _ _).1 q1
        rw [w3] at l1
        cases l1
        simp only at l2 l3
        have hlen : o1.length = ch.enc.length := ((cipherChunk_ok _ _ _).1 l3).2.1
        rw [← hlen, List.drop_left]
        refine ⟨q2, ?_⟩
        intro w' hw'
        rw [w1] at hw'
        cases hw'
        refine (p3 w).1 ?_
        rw [← hlen, List.take_left]; exact l3
      · rintro ⟨q1, q2⟩
        refine ⟨c.take ch.enc.length, c.drop ch.enc.length, ?_, q1, (List.take_append_drop _ _).symm⟩
        exact (cipherChunks_one _ _ _).2 ⟨_, w3, by simp only; rw [w2.1]; exact hle, (p3 w).2 (q2 w w1)⟩

end K431
