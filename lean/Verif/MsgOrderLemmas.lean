import Verif.KeyOrderLemmas
import Verif.PropsMessages

/-!
# Lemmas: the order of the stored messages
-/

namespace K431
open Spec

/-- the ids at the front of the list stay where they are, if all are still there -/
def FrontStays (l ids ids' : List Runes) : Prop := ∀ fr, ids = l ++ fr → (∀ x ∈ l, x ∈ ids') → ∃ fr', ids' = l ++ fr'

theorem FrontStays.refl (l ids : List Runes) : FrontStays l ids ids := fun fr e _ => ⟨fr, e⟩

theorem FrontStays.append (l ids : List Runes) (x : Runes) : FrontStays l ids (ids ++ [x]) := fun fr e _ => ⟨fr ++ [x], by rw [e, List.append_assoc]⟩

theorem FrontStays.set {l ids : List Runes} {i : Nat} {u v : Runes} (hl : ([] : Runes) ∉ l) (hu : ids[i]? = some u) (hv : v = u ∨ u = []) :
    FrontStays l ids (ids.set i v) := by
  intro fr e _
  have hi : i < ids.length := (List.getElem?_eq_some_iff.1 hu).1
  rcases hv with rfl | rfl
  · refine ⟨fr, ?_⟩
    rw [← e]
    apply List.ext_getElem?
    intro j
    rw [List.getElem?_set]
    by_cases h : i = j
    · subst h; simp only [if_true, hi, hu]
    · simp only [h, if_false]
  · have hle : l.length ≤ i := by
      by_contra hlt
      apply hl
      rw [e, List.getElem?_append_left (by omega)] at hu
      exact List.mem_of_getElem? hu
    exact ⟨fr.set (i - l.length) v, by rw [e, List.set_append_right _ _ hle]⟩

theorem FrontStays.swap {l ids : List Runes} {i : Nat} (hn : ids.Nodup) (hi : i < ids.length) : FrontStays l ids (swapRemove ids i) := by
  intro fr e hc
  rw [e] at hi hn hc ⊢
  by_cases hl : l.length ≤ i
  · exact ⟨_, swapRemove_front hl hi⟩
  · exfalso
    have hlt : i < l.length := by omega
    have hx := hc l[i] (List.getElem_mem hlt)
    rw [(swapRemove_perm hi).mem_iff, List.mem_eraseIdx_iff_getElem] at hx
    obtain ⟨j, hj, hne, hje⟩ := hx
    apply hne
    have : (l ++ fr)[j] = (l ++ fr)[i] := by rw [hje, List.getElem_append_left hlt]
    exact (List.Nodup.getElem_inj_iff hn).1 this

theorem wipeMessage_ids (noise : Nat → Rune) (m : Msg) (inst : Inst) : (wipeMessage noise m inst).messages.map Msg.id = inst.messages.map Msg.id := by
  obtain ⟨g, _, h⟩ := wipeMessage_messages noise m inst
  rw [h, List.map_map]; rfl

theorem deleteMessageOnce_ids (noise : Nat → Rune) (inst : Inst) (id : Runes) :
    (id ∉ inst.messages.map Msg.id ∧ (deleteMessageOnce noise inst id).2.messages.map Msg.id = inst.messages.map Msg.id) ∨
    ∃ i, (inst.messages.map Msg.id)[i]? = some id ∧ (deleteMessageOnce noise inst id).2.messages.map Msg.id = swapRemove (inst.messages.map Msg.id) i := by
  unfold deleteMessageOnce
  rcases hf : firstIdx (fun m => equalRunes (some m.id) (some id)) 0 inst.messages with _ | i
  · left
    refine ⟨?_, by rw [hf]⟩
    intro hm
    obtain ⟨m, hmem, rfl⟩ := List.mem_map.1 hm
    have := firstIdx_none hf m hmem
    have h2 := (equalRunes_iff m.id m.id).2 rfl
    rw [h2] at this
    cases this
  · right
    obtain ⟨⟨m, hm, hp⟩, _⟩ := firstIdx_some hf
    rw [equalRunes_iff] at hp
    refine ⟨i, by rw [List.getElem?_map, hm, ← hp]; rfl, ?_⟩
    rw [hf]
    simp only [hm]
    rw [swapRemove_map, wipeMessage_ids]

theorem deleteMessage_front (l : List Runes) : ∀ (ids : List Runes) (noise : Nat → Nat → Rune) (inst : Inst), (inst.messages.map Msg.id).Nodup →
    ((deleteMessage noise inst ids).2.messages.map Msg.id ⊆ inst.messages.map Msg.id) ∧
    FrontStays l (inst.messages.map Msg.id) ((deleteMessage noise inst ids).2.messages.map Msg.id) := by
  intro ids
  induction ids with
  | nil => intro noise inst _; exact ⟨fun _ h => h, FrontStays.refl _ _⟩
  | cons id ids ih =>
    intro noise inst hn
    have h1 : (((deleteMessageOnce (noise 0) inst id).2.messages.map Msg.id).Nodup) ∧
        ((deleteMessageOnce (noise 0) inst id).2.messages.map Msg.id ⊆ inst.messages.map Msg.id) ∧
        FrontStays l (inst.messages.map Msg.id) ((deleteMessageOnce (noise 0) inst id).2.messages.map Msg.id) := by
      rcases deleteMessageOnce_ids (noise 0) inst id with ⟨_, e⟩ | ⟨i, hi, e⟩
      · rw [e]; exact ⟨hn, fun _ h => h, FrontStays.refl _ _⟩
      · rw [e]
        have hlt := (List.getElem?_eq_some_iff.1 hi).1
        refine ⟨(swapRemove_perm hlt).nodup_iff.2 ((List.eraseIdx_sublist _ _).nodup hn), ?_, FrontStays.swap hn hlt⟩
        intro x hx
        exact (List.eraseIdx_sublist _ _).subset ((swapRemove_perm hlt).mem_iff.1 hx)
    obtain ⟨h2, h3⟩ := ih (fun i => noise (i + 1)) _ h1.1
    refine ⟨fun x hx => h1.2.1 (h2 hx), ?_⟩
    intro fr e hc
    obtain ⟨fr1, e1⟩ := h1.2.2 fr e (fun x hx => h2 (hc x hx))
    exact h3 fr1 e1 hc

/-- every operation keeps the order of the messages at the front -/
theorem msgStep_front {U : Unicode} {a b : Inst} {l : List Runes} (hl : ([] : Runes) ∉ l) (hn : (a.messages.map Msg.id).Nodup) (hs : MsgStep U a b) :
    FrontStays l (a.messages.map Msg.id) (b.messages.map Msg.id) := by
  have hmap : ∀ (l : List Msg) (g : Sl → Sl), (l.map (Msg.withKey g)).map Msg.id = l.map Msg.id := by
    intro l g; rw [List.map_map]; rfl
  have hset : ∀ (ms : List Msg) (i : Nat) (m m' : Msg) (f : Runes), ms[i]? = some m → m'.id = (withId f m).id → ∀ l' : List Msg, l'.map Msg.id = ms.map Msg.id →
      FrontStays l (ms.map Msg.id) ((l'.set i m').map Msg.id) := by
    intro ms i m m' f hm hid l' hl'
    rw [List.map_set, hl', hid]
    refine FrontStays.set hl (u := m.id) (by rw [List.getElem?_map, hm]; rfl) ?_
    unfold withId
    split
    · right
      rename_i h0
      exact List.length_eq_zero_iff.1 h0
    · exact .inl rfl
  cases hs with
  | key hk =>
    cases hk with
    | newKey hn => rw [newKey_messages hn]; exact FrontStays.refl _ _
    | @generate now start n expire keepers _ _ t t' o hg =>
      unfold generateKeys at hg
      split at hg
      · rcases hl : generateLoop U now _ keepers n.toNat _ t with _ | ⟨i1, t1⟩
        · rw [hl] at hg; cases hg
        · rw [hl] at hg
          simp only [Option.map_some, Option.some.injEq, Prod.mk.injEq] at hg
          rw [← hg.2.1, generateLoop_messages hl]
          exact FrontStays.refl _ _
      · simp only [Option.some.injEq, Prod.mk.injEq] at hg; rw [← hg.2.1]; exact FrontStays.refl _ _
      · simp only [Option.some.injEq, Prod.mk.injEq] at hg; rw [← hg.2.1]; exact FrontStays.refl _ _
    | delete noise ids => rw [deleteKey_msgIds]; exact FrontStays.refl _ _
    | deleteByString noise args => unfold deleteKeyByString; rw [deleteKey_msgIds]; exact FrontStays.refl _ _
    | deleteBySummary noise lines => rw [deleteBySummary_msgIds]; exact FrontStays.refl _ _
    | importKeys noise o filter loaded => rw [importKeys_msgIds]; exact FrontStays.refl _ _
  | @create noise E f _ _ args t t' o hc =>
    unfold newTextMessageRun at hc
    cases args with
    | nil =>
      simp only [newTextMessage, Option.some.injEq, Prod.mk.injEq] at hc
      rw [← hc.1.2]; exact FrontStays.refl _ _
    | cons r rest =>
      simp only at hc
      split at hc
      · cases hc
      · rename_i o1 t1 hpr
        simp only [Option.some.injEq, Prod.mk.injEq] at hc
        have hcases := newTextMessage_cases hc.1
        have hadd : ∀ (ms : List Msg) (m : Msg), ms.map Msg.id = a.messages.map Msg.id → FrontStays l (a.messages.map Msg.id) ((ms ++ [m]).map Msg.id) := by
          intro ms m e
          rw [List.map_append, e]
          exact FrontStays.append _ _ _
        cases hcases with
        | failed _ _ hm => rw [hm, hmap]; exact FrontStays.refl _ _
        | @own r' rest' p p1 m inst1 inst2 ha hp hmy hcase he =>
          obtain ⟨hi, _⟩ := encipher_ok_messages he
          have h1 : inst1.messages = a.messages := by
            rcases hcase with ⟨_, rfl, rfl⟩ | ⟨a, b, tl, _, rfl, rfl⟩ <;> rfl
          refine hadd _ m ?_
          rw [hi]; simp only; rw [h1]
        | @other r' rest' p p1 m inst2 o' ha hp hmy hp1 ht =>
          obtain ⟨hi, hid⟩ := tryDecipher_messages ht
          exact hadd _ m (by rw [hi])
  | delete noise ids => exact (deleteMessage_front l ids noise _ hn).2
  | deleteByString noise args => exact (deleteMessage_front l _ noise _ hn).2
  | encipher hf hm he =>
    obtain ⟨⟨g, _, hl⟩, hid⟩ := encipher_messages he
    exact hset _ _ _ _ _ hm hid _ (by rw [hl, hmap])
  | decipher hf hm he =>
    obtain ⟨hl, hid⟩ := decipher_messages he
    exact hset _ _ _ _ _ hm hid _ (by rw [hl])
  | tryDecipher hf hm he =>
    obtain ⟨hl, hid⟩ := tryDecipher_messages he
    exact hset _ _ _ _ _ hm hid _ (by rw [hl])

end K431
