import Verif.PropsCipher
import Verif.LookupLemmas
import Mathlib.Data.List.Forall2

/-!
# Finding a key by its id, and marking it (C95)
-/

namespace K431
open Spec

/-- What the user types names the key: trimmed and in capitals it is the key's id. -/
def NamesKey (U : Unicode) (typed : Runes) (k : Key) : Prop :=
  ((((goStr typed).dropWhile U.isSpace).reverse.dropWhile U.isSpace).reverse).map U.toUpper = goStr k.id.val

instance (U : Unicode) (typed : Runes) (k : Key) : Decidable (NamesKey U typed k) := by unfold NamesKey; infer_instance

/-- **C95, look-up.** `GetKey` returns a key exactly if some key is named, and then the first one. -/
theorem C95_get (U : Unicode) (keys : List Key) (typed : Runes) :
    (∀ i, getKey U keys typed = some i ↔ ∃ k, keys[i]? = some k ∧ NamesKey U typed k ∧ ∀ (j : Nat) k', j < i → keys[j]? = some k' → ¬ NamesKey U typed k') ∧
    (getKey U keys typed = none ↔ ∀ k ∈ keys, ¬ NamesKey U typed k) := by
  have hn : ∀ k : Key, NamesKey U typed k ↔ goStr k.id.val = lookupName U typed := fun k => eq_comm
  have h1 : ∀ i, getKey U keys typed = some i → ∃ k, keys[i]? = some k ∧ NamesKey U typed k ∧ ∀ (j : Nat) k', j < i → keys[j]? = some k' → ¬ NamesKey U typed k' := by
    intro i h
    obtain ⟨k, a, b, c⟩ := getKey_some h
    exact ⟨k, a, (hn k).2 b, fun j k' hj hk => by rw [hn]; exact c j k' hj hk⟩
  refine ⟨fun i => ⟨h1 i, ?_⟩, fun h k hk => by rw [hn]; exact getKey_none h k hk, ?_⟩
  · rintro ⟨k, a, b, c⟩
    rcases hg : getKey U keys typed with _ | i'
    · exact absurd ((hn k).1 b) (getKey_none hg k (List.mem_of_getElem? a))
    · obtain ⟨k', a', b', c'⟩ := h1 i' hg
      rcases Nat.lt_trichotomy i i' with h | h | h
      · exact absurd b (c' i k h a)
      · rw [h]
      · exact absurd b' (c i' k' h a')
  · intro h
    rcases hg : getKey U keys typed with _ | i
    · rfl
    · obtain ⟨k, a, b, -⟩ := h1 i hg
      exact absurd b (h k (List.mem_of_getElem? a))

/-- **C95, marking.** `MarkKeyUsed` fails and changes nothing if no key is named; else it sets the flag of the first one named, and that is all that changes. -/
theorem C95_mark (U : Unicode) (keys : List Key) (typed : Runes) (b : Bool) :
    ((∀ k ∈ keys, ¬ NamesKey U typed k) → markKeyUsed U keys typed b = (.err .keyNotFound, keys)) ∧
    ∀ (pre post : List Key) (k : Key), keys = pre ++ k :: post → NamesKey U typed k → (∀ k' ∈ pre, ¬ NamesKey U typed k') →
      markKeyUsed U keys typed b = (.ok (), pre ++ { k with used := b } :: post) := by
  constructor
  · intro h
    unfold markKeyUsed
    rw [(C95_get U keys typed).2.2 h]
  · intro pre post k hk hn hp
    have : getKey U keys typed = some pre.length := ((C95_get U keys typed).1 pre.length).2
      ⟨k, by rw [hk]; simp, hn, fun j k' hj hk' => by
        rw [hk, List.getElem?_append_left hj] at hk'
        exact hp k' (List.mem_of_getElem? hk')⟩
    unfold markKeyUsed
    rw [this]
    have hset : ∀ (pre : List Key), setUsed (pre ++ k :: post) pre.length b = pre ++ { k with used := b } :: post := by
      intro pre
      unfold setUsed
      induction pre with
      | nil => rfl
      | cons x xs ih => simpa using ih
    dsimp only
    rw [hk, hset]

/-- **C95, spelling.** For an id of letters it makes no difference how it is typed: in capitals, small letters or both, with blanks around it or not. -/
theorem C95_spelling {U : Unicode} (hU : U.Lawful) (keys : List Key) {id w a b : Runes} (hid : ∀ c ∈ id, IsLetter c) (hw : List.Forall₂ (fun c x => x = c ∨ x = c + 32) id w)
    (ha : ∀ c ∈ a, c ∈ [(9 : Int), 10, 11, 12, 13, 32]) (hb : ∀ c ∈ b, c ∈ [(9 : Int), 10, 11, 12, 13, 32]) : getKey U keys (a ++ w ++ b) = getKey U keys id := by
  have hcap : ∀ c, IsLetter c → c ∈ capitals := letter_mem_alphabet
  have hsm : ∀ c, IsLetter c → c + 32 ∈ smalls := by
    have h0 : ∀ c ∈ capitals, c + 32 ∈ smalls := by decide
    exact fun c hc => h0 c (hcap c hc)
  have hw1 : (∀ c ∈ w, validRune c = true ∧ U.isSpace c = false) ∧ w.map U.toUpper = id := by
    clear ha hb
    induction hw with
    | nil => simp
    | @cons c x cs xs hx _ ih =>
      obtain ⟨i1, i2⟩ := ih (fun c hc => hid c (by simp [hc]))
      have hc := hid c (by simp)
      have hx1 : (validRune x = true ∧ U.isSpace x = false) ∧ U.toUpper x = c := by
        have hv : 65 ≤ c ∧ c ≤ 90 := hc
        rcases hx with rfl | rfl
        · exact ⟨⟨by unfold validRune; simp; omega, isSpace_letter hU hc⟩, (hU.capital _ (hcap _ hc)).2.2.1⟩
        · refine ⟨⟨by unfold validRune; simp; omega, hU.isSpace_legend _ (by unfold alphabet; simp [hsm _ hc]) (by omega)⟩, ?_⟩
          rw [(hU.small _ (hsm _ hc)).2.2.1]; omega
      refine ⟨fun d hd => ?_, by rw [List.map_cons, hx1.2, i2]⟩
      rcases List.mem_cons.1 hd with rfl | hd
      · exact hx1.1
      · exact i1 d hd
  have hbl : ∀ c ∈ [(9 : Int), 10, 11, 12, 13, 32], validRune c = true := by decide
  have hgo : goStr (a ++ w ++ b) = a ++ w ++ b := by
    unfold goStr
    conv => rhs; rw [← List.map_id (a ++ w ++ b)]
    apply List.map_congr_left
    intro c hc
    simp only [List.mem_append] at hc
    have : validRune c = true := by
      rcases hc with (hc | hc) | hc
      · exact hbl c (ha c hc)
      · exact (hw1.1 c hc).1
      · exact hbl c (hb c hc)
    simp [this]
  unfold getKey
  rw [lookupName_letters hU hid]
  congr 1
  unfold lookupName
  rw [hgo, trimSpace_around (fun c hc => hU.isSpace_blank c (ha c hc)) (fun c hc => hU.isSpace_blank c (hb c hc)) (fun c hc => (hw1.1 c hc).2)]
  exact hw1.2

/-- **C95, limit.** A key whose id has a small letter, such as one that came with a file, is not found by any id. -/
theorem C95_unreachable {U : Unicode} (hU : U.Lawful) {keys : List Key} {typed : Runes} {i : Nat} {k : Key} (h : getKey U keys typed = some i) (hk : keys[i]? = some k) {c : Rune}
    (hc : c ∈ smalls) : c ∉ k.id.val := by
  intro hm
  obtain ⟨k', h1, h2, -⟩ := getKey_some h
  rw [hk] at h1; cases h1
  have hv : validRune c = true := by
    have h0 : ∀ c ∈ smalls, validRune c = true := by decide
    exact h0 c hc
  have h3 : c ∈ goStr k.id.val := List.mem_map.2 ⟨c, hm, by simp [hv]⟩
  rw [h2] at h3
  unfold lookupName toUpperStr at h3
  obtain ⟨d, -, hd⟩ := List.mem_map.1 h3
  have h4 := hU.toUpper_idem d
  rw [hd, (hU.small c hc).2.2.1] at h4
  omega

/-- non-vacuity: spelled differently, marked, unknown, and with a small letter -/
example : getKey unicode15 ex2.keys (lit " b\n") = some 1 ∧ NamesKey unicode15 (lit " b\n") (exKey 2 "B" "ASDFGHJKLZ") ∧
    ((markKeyUsed unicode15 ex2.keys (lit "b") true).2.map Key.used) = [false, true] ∧ markKeyUsed unicode15 ex2.keys (lit "C") true = (.err .keyNotFound, ex2.keys) ∧
    getKey unicode15 [exKey 1 "a" "QWERTYUIOP"] (lit "a") = none := by decide

example : List.Forall₂ (fun c x => x = c ∨ x = c + 32) (lit "AB") (lit "aB") ∧ 98 ∈ smalls :=
  ⟨.cons (by decide) (.cons (by decide) .nil), by decide⟩

end K431
