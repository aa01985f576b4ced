import Verif.Keys
import Verif.SpecStore
import Verif.PropsFunctions
import Mathlib.Data.List.Perm.Basic

/-! # Helper lemmas: key store operations -/

namespace K431
open Spec

theorem SameFold.refl (U : Unicode) (a : Runes) : SameFold U a a := rfl
theorem SameFold.symm {U : Unicode} {a b : Runes} (h : SameFold U a b) : SameFold U b a := Eq.symm h
theorem SameFold.trans {U : Unicode} {a b c : Runes} (h : SameFold U a b) (h' : SameFold U b c) : SameFold U a c :=
  Eq.trans h h'

theorem firstIdx_shift {α : Type} (p : α → Bool) : ∀ (l : List α) (i : Nat),
    firstIdx p i l = (firstIdx p 0 l).map (· + i) := by
  intro l
  induction l with
  | nil => intro i; rfl
  | cons x xs ih =>
    intro i
    simp only [firstIdx]
    by_cases h : p x = true
    · simp [h]
    · rw [if_neg h, if_neg h, ih (i + 1), ih (0 + 1)]
      rcases firstIdx p 0 xs with _ | j
      · rfl
      · simp; omega

theorem firstIdx_none {α : Type} {p : α → Bool} {l : List α} (h : firstIdx p 0 l = none) : ∀ x ∈ l, p x = false := by
  induction l with
  | nil => simp
  | cons x xs ih =>
    simp only [firstIdx] at h
    by_cases hx : p x = true
    · simp [hx] at h
    · rw [if_neg hx, firstIdx_shift] at h
      rcases hf : firstIdx p 0 xs with _ | j
      · intro y hy
        rcases List.mem_cons.1 hy with rfl | hy
        · simpa using hx
        · exact ih hf y hy
      · rw [hf] at h; simp at h

theorem firstIdx_some {α : Type} {p : α → Bool} : ∀ {l : List α} {i : Nat}, firstIdx p 0 l = some i →
    (∃ x, l[i]? = some x ∧ p x = true) ∧ l.eraseP p = l.eraseIdx i := by
  intro l
  induction l with
  | nil => intro i h; cases h
  | cons x xs ih =>
    intro i h
    simp only [firstIdx] at h
    by_cases hx : p x = true
    · simp [hx] at h; subst h
      exact ⟨⟨x, rfl, hx⟩, by simp [hx]⟩
    · rw [if_neg hx, firstIdx_shift] at h
      rcases hf : firstIdx p 0 xs with _ | j
      · rw [hf] at h; cases h
      · rw [hf] at h; simp at h; subst h
        obtain ⟨⟨y, h1, h2⟩, h3⟩ := ih hf
        refine ⟨⟨y, by simpa using h1, h2⟩, ?_⟩
        rw [List.eraseP_cons_of_neg (by simpa using hx), h3]; rfl

theorem swapRemove_perm {α : Type} {l : List α} {i : Nat} (h : i < l.length) :
    (swapRemove l i).Perm (l.eraseIdx i) := by
  unfold swapRemove
  rcases List.eq_nil_or_concat l with rfl | ⟨l', x, rfl⟩
  · simp at h
  · simp only [List.concat_eq_append, List.getLast?_append, List.getLast?_singleton, Option.some_or]
    simp only [List.concat_eq_append, List.length_append, List.length_singleton] at h
    by_cases hi : i < l'.length
    · rw [List.set_append_left _ _ hi, List.dropLast_concat, List.eraseIdx_append_of_lt_length hi]
      exact (List.set_perm_cons_eraseIdx hi x).trans (List.perm_append_singleton x _).symm
    · have : i = l'.length := by omega
      subst this
      rw [List.set_append_right _ _ (by omega)]
      simp [List.eraseIdx_append_of_length_le]

theorem swapRemove_map {α β : Type} (f : α → β) (l : List α) (i : Nat) :
    (swapRemove l i).map f = swapRemove (l.map f) i := by
  unfold swapRemove
  rw [List.getLast?_map]
  rcases l.getLast? with _ | x
  · rfl
  · simp [List.map_dropLast, List.map_set]

theorem removeFirst_perm {α : Type} (p : α → Bool) (l : List α) : (removeFirst p l).Perm (l.eraseP p) := by
  unfold removeFirst
  rcases hf : firstIdx p 0 l with _ | i
  · simp only
    rw [List.eraseP_of_forall_not]
    intro x hx
    simpa using firstIdx_none hf x hx
  · obtain ⟨⟨x, h1, _⟩, h3⟩ := firstIdx_some hf
    simp only
    rw [h3]
    exact swapRemove_perm (List.getElem?_eq_some_iff.1 h1).1

theorem eraseP_eq_filter {α : Type} (p : α → Bool) : ∀ l : List α, l.Pairwise (fun a b => ¬ (p a = true ∧ p b = true)) →
    l.eraseP p = l.filter (fun x => !p x) := by
  intro l
  induction l with
  | nil => intro _; rfl
  | cons x xs ih =>
    intro h
    rw [List.pairwise_cons] at h
    by_cases hx : p x = true
    · rw [List.eraseP_cons_of_pos hx, List.filter_cons_of_neg (by simp [hx])]
      symm
      rw [List.filter_eq_self]
      intro y hy
      simpa [hx] using h.1 y hy
    · rw [List.eraseP_cons_of_neg hx, List.filter_cons_of_pos (by simp [hx]), ih h.2]

theorem containsKeyId_iff (U : Unicode) (keys : List Key) (id : Runes) :
    containsKeyId U keys (some id) = true ↔ InFold U id (keys.map (fun k => k.id.val)) := by
  simp only [containsKeyId, InFold, List.mem_map]
  induction keys with
  | nil => simp [containsKeyIdLoop]
  | cons k ks ih =>
    simp only [containsKeyIdLoop]
    by_cases h : equalRunesFold U (some k.id.val) (some id) = true
    · simp only [h, if_true, true_iff]
      exact ⟨_, ⟨k, by simp, rfl⟩, ((equalRunesFold_iff U _ _).1 h).symm⟩
    · rw [if_neg h, ih]
      constructor
      · rintro ⟨b, ⟨k', h1, h2⟩, h3⟩; exact ⟨b, ⟨k', by simp [h1], h2⟩, h3⟩
      · rintro ⟨b, ⟨k', h1, h2⟩, h3⟩
        rcases List.mem_cons.1 h1 with rfl | h1
        · exact absurd ((equalRunesFold_iff U _ _).2 (by rw [h2]; exact h3.symm)) h
        · exact ⟨b, ⟨k', h1, h2⟩, h3⟩

theorem containsNames_one (U : Unicode) (names : List Runes) (a : Runes) :
    containsNames U names [a] = true ↔ InFold U a names := by
  have := ((C30_membership U).2.2.2.2.2.2.2.1 [a] names)
  unfold containsNames
  simp only [List.length_singleton, Nat.one_ne_zero, if_false, Bool.if_false_right, Bool.and_true] at *
  simp only [InFold]
  constructor
  · intro h
    obtain ⟨b, hb, hs⟩ := (this.1 (by simpa using h)).2 a (by simp)
    exact ⟨b, hb, hs.symm⟩
  · rintro ⟨b, hb, hs⟩
    have := this.2 ⟨by simp, fun n hn => by rw [List.mem_singleton] at hn; subst hn; exact ⟨b, hb, hs.symm⟩⟩
    simp [this]

/-! ### keepers -/

theorem addKeeper_spec (U : Unicode) : ∀ (args keepers : List Sl),
    ∃ new, addKeeper U keepers args = keepers ++ new ∧ new.Sublist args ∧
      (∀ a ∈ args, InFold U a.val ((keepers ++ new).map Sl.val)) ∧
      ((keepers.map Sl.val).Pairwise (fun a b => ¬ SameFold U a b) →
        ((keepers ++ new).map Sl.val).Pairwise (fun a b => ¬ SameFold U a b)) ∧
      (∀ s ∈ new, ¬ InFold U s.val (keepers.map Sl.val)) ∧
      ((∀ a ∈ args, InFold U a.val (keepers.map Sl.val)) → new = []) := by
  intro args
  induction args with
  | nil => intro keepers; exact ⟨[], by simp [addKeeper], by simp, by simp, by simp, by simp, by simp⟩
  | cons a as ih =>
    intro keepers
    simp only [addKeeper]
    by_cases hc : containsNames U (keepers.map Sl.val) [a.val] = true
    · rw [if_pos hc]
      rw [containsNames_one] at hc
      obtain ⟨new, h1, h2, h3, h4, h5, h6⟩ := ih keepers
      refine ⟨new, h1, h2.cons _, ?_, h4, h5, fun h => h6 (fun x hx => h x (by simp [hx]))⟩
      intro x hx
      rcases List.mem_cons.1 hx with rfl | hx
      · obtain ⟨b, hb, hs⟩ := hc
        exact ⟨b, by simp at hb ⊢; exact .inl hb, hs⟩
      · exact h3 x hx
    · rw [if_neg hc]
      rw [containsNames_one] at hc
      obtain ⟨new, h1, h2, h3, h4, h5, h6⟩ := ih (keepers ++ [a])
      refine ⟨a :: new, by rw [h1]; simp, h2.cons_cons _, ?_, ?_, ?_, ?_⟩
      · intro x hx
        rcases List.mem_cons.1 hx with rfl | hx
        · exact ⟨x.val, by simp, rfl⟩
        · have := h3 x hx
          simpa using this
      · intro hd
        have := h4 (by
          rw [List.map_append, List.pairwise_append]
          refine ⟨hd, by simp, ?_⟩
          intro x hx y hy
          simp only [List.map_cons, List.map_nil, List.mem_singleton] at hy
          subst hy
          intro hs
          exact hc ⟨x, hx, hs.symm⟩)
        simpa using this
      · intro s hs
        rcases List.mem_cons.1 hs with rfl | hs
        · exact hc
        · intro ⟨b, hb, hsf⟩
          exact h5 s hs ⟨b, by simp at hb ⊢; exact .inl hb, hsf⟩
      · intro h
        exact absurd (h a (by simp)) hc

theorem removeKeeper_spec (U : Unicode) : ∀ (args : List Runes) (keepers : List Sl), DistinctNames U (keepers.map Sl.val) →
    (removeKeeper U keepers args).Perm (keepers.filter (fun s => !decide (InFold U s.val args))) := by
  intro args
  induction args with
  | nil => intro keepers _; simp [removeKeeper, InFold]
  | cons a as ih =>
    intro keepers hd
    simp only [removeKeeper]
    have hd' : keepers.Pairwise (fun x y => ¬ SameFold U x.val y.val) := List.pairwise_map.1 hd
    have h1 := removeFirst_perm (fun s => equalRunesFold U (some a) (some s.val)) keepers
    rw [eraseP_eq_filter _ _ (hd'.imp (by
      intro x y hxy ⟨h1, h2⟩
      rw [equalRunesFold_iff] at h1 h2
      exact hxy ((SameFold.symm h1).trans h2)))] at h1
    have hsub : DistinctNames U ((removeFirst (fun s => equalRunesFold U (some a) (some s.val)) keepers).map Sl.val) := by
      unfold DistinctNames
      have : List.Pairwise (fun a b => ¬ SameFold U a b)
          ((keepers.filter (fun s => !equalRunesFold U (some a) (some s.val))).map Sl.val) :=
        List.Pairwise.sublist ((List.filter_sublist).map _) hd
      exact (List.Perm.pairwise_iff (fun hxy h => hxy h.symm) (h1.map Sl.val)).2 this
    refine (ih _ hsub).trans ((h1.filter _).trans ?_)
    rw [List.filter_filter]
    apply List.Perm.of_eq
    apply List.filter_congr
    intro s _
    have e : equalRunesFold U (some a) (some s.val) = decide (SameFold U s.val a) := by
      rw [Bool.eq_iff_iff, equalRunesFold_iff, decide_eq_true_iff]
      exact eq_comm
    rw [e]
    simp only [InFold, List.mem_cons, exists_eq_or_imp, Bool.decide_or, Bool.not_or]
    rw [Bool.and_comm]

/-- without any hypothesis: what stays was there, and only as many are removed as given -/
theorem removeKeeper_sub (U : Unicode) : ∀ (args : List Runes) (keepers : List Sl),
    ∃ r : List Sl, (removeKeeper U keepers args).Perm r ∧ r.Sublist keepers := by
  intro args
  induction args with
  | nil => intro keepers; exact ⟨keepers, .refl _, .refl _⟩
  | cons a as ih =>
    intro keepers
    simp only [removeKeeper]
    obtain ⟨r, h1, h2⟩ := ih (removeFirst (fun s => equalRunesFold U (some a) (some s.val)) keepers)
    have h3 := removeFirst_perm (fun s => equalRunesFold U (some a) (some s.val)) keepers
    obtain ⟨r', h4, h5⟩ := List.exists_perm_sublist h2 h3
    exact ⟨r', h1.trans h4.symm, h5.trans List.eraseP_sublist⟩

/-! ### random draws -/

theorem int31nLoop_lt {n mx : Nat} (hn : 0 < n) : ∀ {t : Tape} {x : Nat} {t' : Tape},
    int31nLoop n mx t = some (x, t') → x < n ∧ t'.length < t.length := by
  intro t
  induction t with
  | nil => intro x t' h; cases h
  | cons v t ih =>
    intro x t' h
    simp only [int31nLoop] at h
    split at h
    · obtain ⟨h1, h2⟩ := ih h
      exact ⟨h1, by simp; omega⟩
    · simp only [Option.some.injEq, Prod.mk.injEq] at h
      obtain ⟨rfl, rfl⟩ := h
      exact ⟨Nat.mod_lt _ hn, by simp⟩

theorem int63nLoop_lt {n mx : Nat} (hn : 0 < n) : ∀ {t : Tape} {x : Nat} {t' : Tape},
    int63nLoop n mx t = some (x, t') → x < n ∧ t'.length < t.length := by
  intro t
  induction t with
  | nil => intro x t' h; cases h
  | cons v t ih =>
    intro x t' h
    simp only [int63nLoop] at h
    split at h
    · obtain ⟨h1, h2⟩ := ih h
      exact ⟨h1, by simp; omega⟩
    · simp only [Option.some.injEq, Prod.mk.injEq] at h
      obtain ⟨rfl, rfl⟩ := h
      exact ⟨Nat.mod_lt _ hn, by simp⟩

theorem intn_lt {n : Nat} (hn : 0 < n) {t t' : Tape} {x : Nat} (h : intn n t = some (x, t')) :
    x < n ∧ t'.length < t.length := by
  have hm : ∀ a : Nat, a &&& (n - 1) < n := fun a => by
    have := Nat.and_le_right (n := a) (m := n - 1)
    omega
  unfold intn int31n int63n at h
  split at h
  · split at h
    · cases t with
      | nil => cases h
      | cons v t => simp only [Option.some.injEq, Prod.mk.injEq] at h; obtain ⟨rfl, rfl⟩ := h; exact ⟨hm _, by simp⟩
    · exact int31nLoop_lt hn h
  · split at h
    · cases t with
      | nil => cases h
      | cons v t => simp only [Option.some.injEq, Prod.mk.injEq] at h; obtain ⟨rfl, rfl⟩ := h; exact ⟨hm _, by simp⟩
    · exact int63nLoop_lt hn h

theorem intns_spec {n : Nat} (hn : 0 < n) : ∀ {k : Nat} {t t' : Tape} {xs : List Nat}, intns n k t = some (xs, t') →
    xs.length = k ∧ (∀ x ∈ xs, x < n) ∧ t'.length + k ≤ t.length := by
  intro k
  induction k with
  | zero => intro t t' xs h; simp [intns] at h; obtain ⟨rfl, rfl⟩ := h; simp
  | succ k ih =>
    intro t t' xs h
    simp only [intns] at h
    rcases hi : intn n t with _ | ⟨x, t1⟩
    · rw [hi] at h; cases h
    · rw [hi] at h
      simp only at h
      rcases hr : intns n k t1 with _ | ⟨ys, t2⟩
      · rw [hr] at h; cases h
      · rw [hr] at h
        simp only [Option.some.injEq, Prod.mk.injEq] at h
        obtain ⟨rfl, rfl⟩ := h
        obtain ⟨a1, a2⟩ := intn_lt hn hi
        obtain ⟨b1, b2, b3⟩ := ih hr
        refine ⟨by simp [b1], ?_, by omega⟩
        intro y hy
        rcases List.mem_cons.1 hy with rfl | hy
        · exact a1
        · exact b2 y hy

theorem letterOf_isLetter {x : Nat} (h : x < 26) : IsLetter (letterOf x) := by unfold IsLetter letterOf; omega

theorem newIdLoop_spec {U : Unicode} {keys : List Key} {g : Nat} : ∀ {fuel : Nat} {t t' : Tape} {id : Runes},
    newIdLoop U keys g fuel t = some (id, t') →
    id.length = g ∧ (∀ c ∈ id, IsLetter c) ∧ ¬ InFold U id (keys.map (fun k => k.id.val)) ∧ t'.length + g ≤ t.length := by
  intro fuel
  induction fuel with
  | zero => intro t t' id h; cases h
  | succ fuel ih =>
    intro t t' id h
    simp only [newIdLoop] at h
    rcases hi : intns 26 g t with _ | ⟨xs, t1⟩
    · rw [hi] at h; cases h
    · rw [hi] at h
      simp only at h
      obtain ⟨a1, a2, a3⟩ := intns_spec (by decide) hi
      split at h
      · obtain ⟨b1, b2, b3, b4⟩ := ih h
        exact ⟨b1, b2, b3, by omega⟩
      · rename_i hc
        simp only [Option.some.injEq, Prod.mk.injEq] at h
        obtain ⟨rfl, rfl⟩ := h
        rw [containsKeyId_iff] at hc
        refine ⟨by simpa using a1, ?_, hc, a3⟩
        intro c hc
        obtain ⟨x, hx, rfl⟩ := List.mem_map.1 hc
        exact letterOf_isLetter (a2 x hx)

theorem allocSls_names : ∀ (l : List Runes) (b : Nat), (allocSls b l).map Sl.val = l := by
  intro l
  induction l with
  | nil => intro b; rfl
  | cons x xs ih => intro b; simp [allocSls, ih]

theorem allocSls_addr : ∀ (l : List Runes) (b : Nat) (s : Sl), s ∈ allocSls b l → b ≤ s.addr ∧ s.addr < b + l.length := by
  intro l
  induction l with
  | nil => intro b s h; cases h
  | cons x xs ih =>
    intro b s h
    rcases List.mem_cons.1 h with rfl | h
    · simp
    · have := ih _ s h
      simp only [List.length_cons]; omega

theorem newKeyLength_spec (kl g : Nat) (hg : g ≠ 0) : newKeyLength kl g % g = 0 ∧ kl ≤ newKeyLength kl g ∧
    newKeyLength kl g < kl + g := by
  unfold newKeyLength
  have h1 := Nat.div_add_mod (kl + g - 1) g
  have h2 := Nat.mod_lt (kl + g - 1) (Nat.pos_of_ne_zero hg)
  rw [Nat.mul_comm g] at h1
  exact ⟨Nat.mul_mod_left _ _, by omega, by omega⟩

/-- What `NewKey` does. -/
theorem newKey_spec {U : Unicode} {now expire : Int} {keepers : List Runes} {inst inst' : Inst} {t t' : Tape} {k : Key}
    (h : newKey U now expire keepers inst t = some (k, inst', t')) :
    inst' = { inst with keys := inst.keys ++ [k], nextAddr := inst.nextAddr + 1 + (vettedKeepers U keepers).length } ∧
    k.id.addr = inst.nextAddr ∧ k.id.val.length = inst.groupSize ∧ (∀ c ∈ k.id.val, IsLetter c) ∧
    ¬ InFold U k.id.val (inst.keys.map (fun k => k.id.val)) ∧ (∀ c ∈ k.runes, IsLetter c) ∧
    k.runes.length = newKeyLength inst.keyLength inst.groupSize ∧ k.used = false ∧ k.compromised = false ∧
    k.created = now ∧ k.expires = expire ∧ k.comment = [] ∧
    k.keepers = removeKeeper U (allocSls (inst.nextAddr + 1) (vettedKeepers U keepers)) [inst.callSign] ∧
    t'.length + inst.groupSize + k.runes.length ≤ t.length := by
  unfold newKey at h
  simp only at h
  rcases hi : newIdLoop U inst.keys inst.groupSize (t.length + 1) t with _ | ⟨id, t1⟩
  · rw [hi] at h; cases h
  · rw [hi] at h
    simp only at h
    rcases hr : intns 26 (newKeyLength inst.keyLength inst.groupSize) t1 with _ | ⟨xs, t2⟩
    · rw [hr] at h; cases h
    · rw [hr] at h
      simp only [Option.some.injEq, Prod.mk.injEq] at h
      obtain ⟨rfl, rfl, rfl⟩ := h
      obtain ⟨a1, a2, a3, a4⟩ := newIdLoop_spec hi
      obtain ⟨b1, b2, b3⟩ := intns_spec (by decide) hr
      refine ⟨rfl, rfl, a1, a2, a3, ?_, by simpa using b1, rfl, rfl, rfl, rfl, rfl, rfl, by simp [b1]; omega⟩
      intro c hc
      obtain ⟨x, hx, rfl⟩ := List.mem_map.1 hc
      exact letterOf_isLetter (b2 x hx)

end K431
