import Verif.SpecTrace
import Verif.CliLemmas
import Verif.ImpSpec
import Mathlib.Data.List.Forall2

/-!
# Lemmas for what is left of deleted keys and messages
-/

namespace K431
open Spec

theorem swapRemove_fixed {α : Type} {l : List α} {i : Nat} {g : α → α} (hi : i < l.length) (h : ∀ x ∈ l.eraseIdx i, g x = x) : swapRemove (l.map g) i = swapRemove l i := by
  rw [← swapRemove_map]
  conv => rhs; rw [← List.map_id (swapRemove l i)]
  apply List.map_congr_left
  intro x hx
  exact h x ((swapRemove_perm hi).mem_iff.1 hx)

theorem pairwise_others {α : Type} {R : α → α → Prop} (hs : ∀ x y, R x y → R y x) {l : List α} (h : l.Pairwise R) {i : Nat} {k : α} (hk : l[i]? = some k) : ∀ x ∈ l.eraseIdx i, R k x := by
  obtain ⟨hi, rfl⟩ := List.getElem?_eq_some_iff.1 hk
  have hp := (List.getElem_cons_eraseIdx_perm hi)
  have := (hp.pairwise_iff (fun {x y} h => hs x y h)).2 h
  exact (List.pairwise_cons.1 this).1

theorem pairwise_swapRemove {α : Type} {R : α → α → Prop} (hs : ∀ x y, R x y → R y x) {l : List α} (h : l.Pairwise R) {i : Nat} (hi : i < l.length) : (swapRemove l i).Pairwise R :=
  ((swapRemove_perm hi).pairwise_iff (fun {x y} h => hs x y h)).2 (h.sublist (List.eraseIdx_sublist l i))

theorem mem_swapRemove {α : Type} {l : List α} {i : Nat} (hi : i < l.length) {x : α} (h : x ∈ swapRemove l i) : x ∈ l :=
  (List.eraseIdx_sublist l i).subset ((swapRemove_perm hi).mem_iff.1 h)

theorem ids_symm (x y : Key) (h : x.id.addr = y.id.addr → x.id.val = [] ∧ y.id.val = []) (e : y.id.addr = x.id.addr) : y.id.val = [] ∧ x.id.val = [] := (h e.symm).symm

/-- one round of `DeleteKey` on a store without shared arrays: the last key takes the place of the deleted one, and nothing else happens -/
theorem deleteKeyOnce_exact {U : Unicode} {noise : Noise} {inst : Inst} {id : Runes} {i : Nat} (h : Apart inst)
    (hf : firstIdx (fun k => equalRunesFold U (some k.id.val) (some id)) 0 inst.keys = some i) :
    deleteKeyOnce U noise inst id = (1, { inst with keys := swapRemove inst.keys i }) := by
  obtain ⟨⟨k, hk, -⟩, -⟩ := firstIdx_some hf
  have hi := (List.getElem?_eq_some_iff.1 hk).1
  have hkm := List.mem_of_getElem? hk
  unfold deleteKeyOnce
  rw [hf]
  simp only [hk, wipeKey]
  have hm : inst.messages.map (fun m => { m with keyId := m.keyId.wipedIn (if k.id.val ≠ [] then [k.id.addr] else []) noise.ids }) = inst.messages := by
    conv => rhs; rw [← List.map_id inst.messages]
    apply List.map_congr_left
    intro m hm
    rw [wipedIn_of_not]
    · rfl
    · split
      · rename_i hne
        simpa using fun e => h.empty m hm k hkm hne e.symm
      · simp
  rw [hm, swapRemove_fixed hi]
  intro x hx
  have h1 := pairwise_others ids_symm h.ids hk x hx
  have h2 := pairwise_others (fun x y h => ⟨h.2, h.1⟩) h.keepers hk x hx
  rw [wipedIn_of_not]
  · have := wkeep_unshared (noise := noise) (k := k) (x := x) (fun s hs t ht e => h2.1 ⟨s, hs, t, ht, e⟩)
    exact this
  · split
    · rename_i hne
      simpa using fun e => hne (h1 e.symm).1
    · simp

theorem Apart.dropKey {inst : Inst} (h : Apart inst) {i : Nat} (hi : i < inst.keys.length) : Apart { inst with keys := swapRemove inst.keys i } where
  ids := pairwise_swapRemove ids_symm h.ids hi
  fresh := fun k hk => h.fresh k (mem_swapRemove hi hk)
  keepers := pairwise_swapRemove (fun _ _ h => ⟨h.2, h.1⟩) h.keepers hi
  messages := fun m hm hne x hx => h.messages m hm hne x (mem_swapRemove hi hx)
  empty := fun m hm x hx hne => h.empty m hm x (mem_swapRemove hi hx) hne
  keyIds := h.keyIds

theorem forall₂_swapRemove {α β : Type} {R : α → β → Prop} {l : List α} {m : List β} (h : List.Forall₂ R l m) (i : Nat) : List.Forall₂ R (swapRemove l i) (swapRemove m i) := by
  unfold swapRemove
  rcases List.eq_nil_or_concat l with rfl | ⟨l', x, rfl⟩
  · cases h; exact .nil
  rcases List.eq_nil_or_concat m with rfl | ⟨m', y, rfl⟩
  · cases l' <;> cases h
  simp only [List.concat_eq_append] at h ⊢
  have hlen : l'.length = m'.length := by simpa using h.length_eq
  have h' := h
  rw [List.forall₂_iff_get] at h'
  simp only [List.getLast?_append, List.getLast?_singleton, Option.some_or]
  rw [List.forall₂_iff_get]
  refine ⟨by simp [hlen], ?_⟩
  intro j h1 h2
  simp only [List.get_eq_getElem, List.getElem_dropLast, List.getElem_set]
  have hxy : R x y := by
    have := h'.2 l'.length (by simp) (by simp [hlen])
    simpa [hlen] using this
  split
  · exact hxy
  · have := h'.2 j (by simp at h1 ⊢; omega) (by simp at h2 ⊢; omega)
    simpa using this

theorem firstIdx_forall₂ {α β : Type} {p : α → Bool} {q : β → Bool} {l : List α} {m : List β} (h : List.Forall₂ (fun x y => p x = q y) l m) (i : Nat) : firstIdx p i l = firstIdx q i m := by
  induction h generalizing i with
  | nil => rfl
  | cons e _ ih => simp only [firstIdx, e, ih]

theorem sameBut_ids {U : Unicode} {kids mids : List Runes} {x y : Inst} (h : SameBut U kids mids x y) : x.keys.map (fun k => k.id.val) = y.keys.map (fun k => k.id.val) := by
  have := h.keys
  generalize x.keys = l at this
  generalize y.keys = m at this
  induction this with
  | nil => rfl
  | cons a _ ih => simp only [List.map_cons, ih, a.1]

/-- `DeleteKey` forgets everything about what it deletes -/
theorem deleteKey_forgets {U : Unicode} : ∀ (ids : List Runes) (noise noise' : Nat → Noise) (x y : Inst) (mids : List Runes), Apart x → Apart y →
    DistinctNames U (x.keys.map (fun k => k.id.val)) → SameBut U ids mids x y →
    (deleteKey U noise x ids).1 = (deleteKey U noise' y ids).1 ∧ SameBut U [] mids (deleteKey U noise x ids).2 (deleteKey U noise' y ids).2
  | [], _, _, _, _, _, _, _, _, h => ⟨rfl, h⟩
  | id :: ids, noise, noise', x, y, mids, hx, hy, hd, h => by
    have hidx : firstIdx (fun k : Key => equalRunesFold U (some k.id.val) (some id)) 0 x.keys = firstIdx (fun k : Key => equalRunesFold U (some k.id.val) (some id)) 0 y.keys :=
      firstIdx_forall₂ (h.keys.imp (fun a b e => by rw [e.1])) 0
    have hrest : ∀ {l l' : List Key}, List.Forall₂ (fun k k' => k.id.val = k'.id.val ∧ (SameKey k k' ∨ InFold U k.id.val (id :: ids))) l l' → (∀ k ∈ l, ¬ SameFold U k.id.val id) →
        List.Forall₂ (fun k k' => k.id.val = k'.id.val ∧ (SameKey k k' ∨ InFold U k.id.val ids)) l l' := by
      intro l l' hl
      induction hl with
      | nil => intro _; exact .nil
      | cons a _ ih =>
        intro hn
        refine .cons ⟨a.1, a.2.imp_right ?_⟩ (ih (fun k hk => hn k (by simp [hk])))
        rintro ⟨b, hb, hs⟩
        rcases List.mem_cons.1 hb with rfl | hb
        · exact absurd hs (hn _ (by simp))
        · exact ⟨b, hb, hs⟩
    simp only [deleteKey]
    rcases hf : firstIdx (fun k : Key => equalRunesFold U (some k.id.val) (some id)) 0 x.keys with _ | i
    · have e1 : deleteKeyOnce U (noise 0) x id = (0, x) := by unfold deleteKeyOnce; rw [hf]
      have e2 : deleteKeyOnce U (noise' 0) y id = (0, y) := by unfold deleteKeyOnce; rw [← hidx, hf]
      rw [e1, e2]
      have hn : ∀ k ∈ x.keys, ¬ SameFold U k.id.val id := by
        intro k hk hs
        have := firstIdx_none hf k hk
        rw [(equalRunesFold_iff U _ _).2 hs] at this
        cases this
      obtain ⟨a, b⟩ := deleteKey_forgets ids (fun i => noise (i + 1)) (fun i => noise' (i + 1)) x y mids hx hy hd { h with keys := hrest h.keys hn }
      exact ⟨by rw [a], b⟩
    · rw [deleteKeyOnce_exact hx hf, deleteKeyOnce_exact hy (hidx ▸ hf)]
      obtain ⟨⟨k, hk, hp⟩, -⟩ := firstIdx_some hf
      rw [equalRunesFold_iff] at hp
      have hi := (List.getElem?_eq_some_iff.1 hk).1
      have hd' : x.keys.Pairwise (fun a b => ¬ SameFold U a.id.val b.id.val) := List.pairwise_map.1 hd
      have hsym : ∀ a b : Key, ¬ SameFold U a.id.val b.id.val → ¬ SameFold U b.id.val a.id.val := fun a b h e => h (SameFold.symm e)
      have hn : ∀ z ∈ swapRemove x.keys i, ¬ SameFold U z.id.val id := by
        intro z hz hs
        exact pairwise_others hsym hd' hk z ((swapRemove_perm hi).mem_iff.1 hz) (SameFold.trans hp (SameFold.symm hs))
      obtain ⟨a, b⟩ := deleteKey_forgets ids (fun i => noise (i + 1)) (fun i => noise' (i + 1)) { x with keys := swapRemove x.keys i } { y with keys := swapRemove y.keys i } mids
        (hx.dropKey hi) (hy.dropKey (by rw [← h.keys.length_eq]; exact hi)) (List.pairwise_map.2 (pairwise_swapRemove hsym hd' hi))
        { h with keys := hrest (forall₂_swapRemove h.keys i) hn }
      exact ⟨by rw [a], b⟩

/-- one round of `DeleteMessage` on a store without shared arrays -/
theorem deleteMessageOnce_exact {noise : Nat → Rune} {inst : Inst} {id : Runes} {i : Nat} (h : Apart inst)
    (hf : firstIdx (fun m => equalRunes (some m.id) (some id)) 0 inst.messages = some i) :
    deleteMessageOnce noise inst id = (1, { inst with messages := swapRemove inst.messages i }) := by
  obtain ⟨⟨m, hm, -⟩, -⟩ := firstIdx_some hf
  have hi := (List.getElem?_eq_some_iff.1 hm).1
  have hmm := List.mem_of_getElem? hm
  unfold deleteMessageOnce
  rw [hf]
  simp only [hm, wipeMessage]
  split
  · rfl
  · rename_i hne
    have hne' : m.keyId.val ≠ [] := fun e => hne (by rw [e]; rfl)
    have hks : wipeKeys m.keyId.addr noise inst.keys = inst.keys := by
      unfold wipeKeys
      conv => rhs; rw [← List.map_id inst.keys]
      apply List.map_congr_left
      intro k hk
      unfold Sl.wiped
      rw [if_neg (h.messages m hmm hne' k hk)]
      rfl
    simp only [hks]
    unfold wipeMsgs
    rw [swapRemove_fixed hi]
    intro x hx
    have h1 := pairwise_others (R := fun m n : Msg => m.keyId.addr = n.keyId.addr → m.keyId.val = [] ∧ n.keyId.val = []) (fun x y h e => (h e.symm).symm) h.keyIds hm x hx
    unfold Sl.wiped
    rw [if_neg (fun e => hne' (h1 e.symm).1)]

theorem Apart.dropMessage {inst : Inst} (h : Apart inst) {i : Nat} (hi : i < inst.messages.length) : Apart { inst with messages := swapRemove inst.messages i } where
  ids := h.ids
  fresh := h.fresh
  keepers := h.keepers
  messages := fun m hm => h.messages m (mem_swapRemove hi hm)
  empty := fun m hm => h.empty m (mem_swapRemove hi hm)
  keyIds := pairwise_swapRemove (fun _ _ h e => (h e.symm).symm) h.keyIds hi

/-- `DeleteMessage` forgets everything about what it deletes -/
theorem deleteMessage_forgets {U : Unicode} : ∀ (ids : List Runes) (noise noise' : Nat → Nat → Rune) (x y : Inst) (kids : List Runes), Apart x → Apart y →
    (x.messages.map Msg.id).Nodup → SameBut U kids ids x y →
    (deleteMessage noise x ids).1 = (deleteMessage noise' y ids).1 ∧ SameBut U kids [] (deleteMessage noise x ids).2 (deleteMessage noise' y ids).2
  | [], _, _, _, _, _, _, _, _, h => ⟨rfl, h⟩
  | id :: ids, noise, noise', x, y, kids, hx, hy, hd, h => by
    have hidx : firstIdx (fun m : Msg => equalRunes (some m.id) (some id)) 0 x.messages = firstIdx (fun m : Msg => equalRunes (some m.id) (some id)) 0 y.messages :=
      firstIdx_forall₂ (h.messages.imp (fun a b e => by rw [e.1])) 0
    have hrest : ∀ {l l' : List Msg}, List.Forall₂ (fun m m' => m.id = m'.id ∧ (SameMsg m m' ∨ m.id ∈ id :: ids)) l l' → (∀ m ∈ l, m.id ≠ id) →
        List.Forall₂ (fun m m' => m.id = m'.id ∧ (SameMsg m m' ∨ m.id ∈ ids)) l l' := by
      intro l l' hl
      induction hl with
      | nil => intro _; exact .nil
      | cons a _ ih =>
        intro hn
        refine .cons ⟨a.1, a.2.imp_right ?_⟩ (ih (fun k hk => hn k (by simp [hk])))
        intro hb
        rcases List.mem_cons.1 hb with e | hb
        · exact absurd e (hn _ (by simp))
        · exact hb
    simp only [deleteMessage]
    rcases hf : firstIdx (fun m : Msg => equalRunes (some m.id) (some id)) 0 x.messages with _ | i
    · have e1 : deleteMessageOnce (noise 0) x id = (0, x) := by unfold deleteMessageOnce; rw [hf]
      have e2 : deleteMessageOnce (noise' 0) y id = (0, y) := by unfold deleteMessageOnce; rw [← hidx, hf]
      rw [e1, e2]
      have hn : ∀ m ∈ x.messages, m.id ≠ id := by
        intro m hm hs
        have := firstIdx_none hf m hm
        rw [(equalRunes_iff _ _).2 hs] at this
        cases this
      obtain ⟨a, b⟩ := deleteMessage_forgets ids (fun i => noise (i + 1)) (fun i => noise' (i + 1)) x y kids hx hy hd { h with messages := hrest h.messages hn }
      exact ⟨by rw [a], b⟩
    · rw [deleteMessageOnce_exact hx hf, deleteMessageOnce_exact hy (hidx ▸ hf)]
      obtain ⟨⟨m, hm, hp⟩, -⟩ := firstIdx_some hf
      rw [equalRunes_iff] at hp
      have hi := (List.getElem?_eq_some_iff.1 hm).1
      have hd' : x.messages.Pairwise (fun a b => a.id ≠ b.id) := List.pairwise_map.1 hd
      have hsym : ∀ a b : Msg, a.id ≠ b.id → b.id ≠ a.id := fun a b h e => h e.symm
      have hn : ∀ z ∈ swapRemove x.messages i, z.id ≠ id := by
        intro z hz hs
        exact pairwise_others hsym hd' hm z ((swapRemove_perm hi).mem_iff.1 hz) (hp.trans hs.symm)
      obtain ⟨a, b⟩ := deleteMessage_forgets ids (fun i => noise (i + 1)) (fun i => noise' (i + 1)) { x with messages := swapRemove x.messages i } { y with messages := swapRemove y.messages i } kids
        (hx.dropMessage hi) (hy.dropMessage (by rw [← h.messages.length_eq]; exact hi)) (List.pairwise_map.2 (pairwise_swapRemove hsym hd' hi))
        { h with messages := hrest (forall₂_swapRemove h.messages i) hn }
      exact ⟨by rw [a], b⟩

/-- stores that are the same have the same encoding -/
theorem gobInst_same {U : Unicode} {x y : Inst} (h : SameBut U [] [] x y) : gobInst x = gobInst y := by
  have hk : x.keys.map gobKey = y.keys.map gobKey := by
    have := h.keys
    generalize x.keys = l at this
    generalize y.keys = m at this
    induction this with
    | nil => rfl
    | cons a _ ih =>
      rcases a.2 with s | ⟨b, hb, -⟩
      · rw [List.map_cons, List.map_cons, ih]
        congr 1
        unfold gobKey Key.names
        rw [s.id, s.runes, s.keepers, s.created, s.expires, s.used, s.compromised, s.comment]
      · cases hb
  have hm : x.messages.map gobMsg = y.messages.map gobMsg := by
    have := h.messages
    generalize x.messages = l at this
    generalize y.messages = m at this
    induction this with
    | nil => rfl
    | cons a _ ih =>
      rcases a.2 with s | hb
      · rw [List.map_cons, List.map_cons, ih]
        congr 1
        unfold gobMsg
        rw [s.id, s.recipients, s.from_, s.dtg, s.keyId, s.plainText, s.cipherText, s.radiogram]
      · cases hb
  unfold gobInst
  rw [h.groupSize, h.keyLength, h.columns, h.keyColumns, hk, hm, h.callSign]

/-- what `Save` writes depends on the encoding only -/
theorem save_same {C : Codec} {E : PwEnv} {W : World} {disk disk' : Disk} {k k' : Krypto} {key : List Nat} (ho : k.overwrite = true) (ho' : k'.overwrite = true)
    (hk : k.pfk = some key) (hk' : k'.pfk = some key) (hp : k.persistence = k'.persistence) (hi : gobInst k.inst = gobInst k'.inst) :
    ∃ q q', save C E W disk k = some q ∧ save C E W disk' k' = some q' ∧ q.outcome = q'.outcome ∧ q.contents = q'.contents ∧ q.k.persistence = q'.k.persistence := by
  have hsk : ∀ (p : List Nat) (k : Krypto), k.pfk = some key → saveKey C E W { k with persistence := p } = some (saveWrite C W key { k with persistence := p }) := by
    intro p k h
    unfold saveKey
    simp only [h]
  unfold save
  rw [← hp]
  split
  · exact ⟨_, _, rfl, rfl, rfl, rfl, hp⟩
  split
  · exact ⟨_, _, rfl, rfl, rfl, rfl, hp⟩
  dsimp only
  split
  · exact ⟨_, _, rfl, rfl, rfl, rfl, rfl⟩
  rename_i path _ _
  refine ⟨saveWrite C W key { k with persistence := path }, saveWrite C W key { k' with persistence := path }, ?_, ?_, ?_⟩
  · rw [← hsk path k hk]; rcases disk path with _ | c <;> simp only [ho, if_true]
  · rw [← hsk path k' hk']; rcases disk' path with _ | c <;> simp only [ho', if_true]
  · unfold saveWrite
    split
    · exact ⟨rfl, rfl, rfl⟩
    split
    · exact ⟨rfl, rfl, rfl⟩
    simp only [hi]
    rcases W.room with _ | n <;> dsimp only
    · exact ⟨rfl, rfl, rfl⟩
    split
    · exact ⟨rfl, rfl, rfl⟩
    · exact ⟨rfl, rfl, rfl⟩

end K431
