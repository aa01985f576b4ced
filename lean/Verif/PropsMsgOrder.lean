import Verif.MsgOrderLemmas

/-!
# C118: messages stay in the order in which they were entered
-/

namespace K431
open Spec

/-- One operation after which the messages with the ids `l` are stored. -/
def StepWith (U : Unicode) (l : List Runes) (a b : Inst) : Prop := MsgStep U a b ∧ ∀ x ∈ l, x ∈ b.messages.map Msg.id

/-- **C118**, full statement: of two messages that stay in the store, the one that comes first still comes first after any history. -/
def C118_Statement : Prop :=
  ∀ (U : Unicode), U.Lawful → ∀ (a b : Inst) (x y : Runes), (a.messages.map Msg.id).Nodup → (∀ m ∈ a.messages, m.id ≠ []) →
    Relation.ReflTransGen (StepWith U [x, y]) a b →
    ∀ (i j i' j' : Nat), (a.messages.map Msg.id)[i]? = some x → (a.messages.map Msg.id)[j]? = some y → i < j →
      (b.messages.map Msg.id)[i']? = some x → (b.messages.map Msg.id)[j']? = some y → i' < j'

/-- a store with three messages -/
def exLog : Inst := { ex2 with messages := [{ exMsg "FIRST" with id := lit "AAAA" }, { exMsg "SECOND" with id := lit "BBBB" }, { exMsg "THIRD" with id := lit "CCCC" }] }

/-- The statement is false: when a message is deleted the last one is moved to its place. -/
theorem C118_violated : ¬ C118_Statement := by
  intro h
  have := h unicode15 unicode15_lawful exLog (deleteMessage (fun _ _ => 0) exLog [lit "AAAA"]).2 (lit "BBBB") (lit "CCCC") (by decide) (by decide)
    (.single ⟨.delete _ _ _, by decide⟩) 1 2 1 0 (by decide) (by decide) (by decide) (by decide) (by decide)
  omega

/-- what happened -/
example : (deleteMessage (fun _ _ => 0) exLog [lit "AAAA"]).2.messages.map Msg.plainText = [lit "THIRD", lit "SECOND"] := by decide

/-- **C118** (partial; missing: histories in which an earlier message is deleted): take the first messages of the store, as many as one likes.  As long as
none of them is deleted they stay the first ones, in the same order, and all that comes later comes after them. -/
theorem C118_partial (U : Unicode) (a b : Inst) (l fr : List Runes) (hn : (a.messages.map Msg.id).Nodup) (he : ∀ m ∈ a.messages, m.id ≠ [])
    (hl : a.messages.map Msg.id = l ++ fr) (h : Relation.ReflTransGen (StepWith U l) a b) : ∃ fr', b.messages.map Msg.id = l ++ fr' := by
  have hl0 : ([] : Runes) ∉ l := by
    intro h0
    obtain ⟨m, hm, hm0⟩ := List.mem_map.1 (show ([] : Runes) ∈ a.messages.map Msg.id by rw [hl]; exact List.mem_append_left _ h0)
    exact he m hm hm0
  have key : ∀ {c : Inst}, Relation.ReflTransGen (StepWith U l) a c → (c.messages.map Msg.id).Nodup ∧ ∃ fr', c.messages.map Msg.id = l ++ fr' := by
    intro c hc
    induction hc with
    | refl => exact ⟨hn, fr, hl⟩
    | tail _ hstep ih =>
      obtain ⟨h1, fr1, h2⟩ := ih
      exact ⟨C28_unique U _ _ h1 (.single hstep.1), msgStep_front hl0 h1 hstep.1 fr1 h2 hstep.2⟩
  exact (key h).2

/-- **C118** (partial), what a deletion does: the last message takes the place of the deleted one, all others stay where they are. -/
theorem C118_delete_partial (noise : Nat → Nat → Rune) (inst : Inst) (id : Runes) (i : Nat) (hn : (inst.messages.map Msg.id).Nodup)
    (hi : (inst.messages.map Msg.id)[i]? = some id) :
    ((deleteMessage noise inst [id]).2.messages.length + 1 = inst.messages.length) ∧
    (∀ j, j ≠ i → j + 1 < inst.messages.length → ((deleteMessage noise inst [id]).2.messages.map Msg.id)[j]? = (inst.messages.map Msg.id)[j]?) ∧
    (i + 1 < inst.messages.length → ((deleteMessage noise inst [id]).2.messages.map Msg.id)[i]? = (inst.messages.map Msg.id)[inst.messages.length - 1]?) := by
  have e : (deleteMessage noise inst [id]).2.messages.map Msg.id = swapRemove (inst.messages.map Msg.id) i := by
    simp only [deleteMessage]
    rcases deleteMessageOnce_ids (noise 0) inst id with ⟨h0, _⟩ | ⟨n, h0, h1⟩
    · exact absurd (List.mem_of_getElem? hi) h0
    · rw [h1, nodup_getElem? hn h0 hi]
  have hlt : i < (inst.messages.map Msg.id).length := (List.getElem?_eq_some_iff.1 hi).1
  have hlen : (inst.messages.map Msg.id).length = inst.messages.length := List.length_map ..
  have hs : ∀ j, j + 1 < inst.messages.length →
      (swapRemove (inst.messages.map Msg.id) i)[j]? = if i = j then (inst.messages.map Msg.id)[inst.messages.length - 1]? else (inst.messages.map Msg.id)[j]? := by
    intro j hj
    unfold swapRemove
    rw [List.getLast?_eq_getElem?, hlen]
    rcases hx : (inst.messages.map Msg.id)[inst.messages.length - 1]? with _ | x
    · rw [List.getElem?_eq_none_iff] at hx; omega
    · simp only
      rw [List.getElem?_dropLast, if_pos (by rw [List.length_set, hlen]; omega), List.getElem?_set]
      by_cases h : i = j
      · subst h; simp only [if_true, hlt]
      · simp only [h, if_false]
  refine ⟨?_, ?_, ?_⟩
  · have := congrArg List.length e
    rw [List.length_map] at this
    rw [this, (swapRemove_perm hlt).length_eq, List.length_eraseIdx, if_pos hlt, hlen]
    omega
  · intro j hj hj'
    rw [e, hs j hj', if_neg (fun h => hj h.symm)]
  · intro hj
    rw [e, hs i hj, if_pos rfl]

/-- not vacuous -/
example : Relation.ReflTransGen (StepWith unicode15 [lit "AAAA"]) exLog (deleteMessage (fun _ _ => 0) exLog [lit "BBBB"]).2 ∧
    (deleteMessage (fun _ _ => 0) exLog [lit "BBBB"]).2.messages.map Msg.id = [lit "AAAA", lit "CCCC"] :=
  ⟨.single ⟨.delete _ _ _, by decide⟩, by decide⟩

end K431
