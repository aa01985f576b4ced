import Verif.StayLemmas
import Verif.PropsOverlap

/-! # C105: what has been stored stays stored -/

namespace K431
open Spec

/-- **C105**, full statement (with `alone := false`): at some time the file holds a store.  Whatever runs of the program are made from then on, on this file and others, if none of them is asked to remove
something from the file and each can write its own file completely: the file can always be loaded, with the same key unless the key is changed on purpose, and all that was in the store is in it. -/
def C105_Statement (alone : Bool) : Prop :=
  ∀ (C : Codec), C.Lawful → ∀ (U : Unicode) (file : List Nat) (rekey : Bool) (d₀ d₁ d₂ : Disk) (running₁ running₂ : List Disk) (key : List Nat) (i : Inst),
    Relation.ReflTransGen (KeepingStep C U file alone rekey) (d₀, []) (d₁, running₁) → Relation.ReflTransGen (KeepingStep C U file alone rekey) (d₁, running₁) (d₂, running₂) →
    key.length = 32 → SavedAs C d₁ file key i → i.groupSize ≠ 0 → i.keyLength ≠ 0 → i.columns ≠ 0 → i.keyColumns ≠ 0 →
      ∃ key' j, key'.length = 32 ∧ (rekey = false → key' = key) ∧ Stored C d₂ file key' j ∧ Still i j

/-- **C105**, what holds if runs overlap: it is enough that all runs that are under way at that time have read the file as it is.  Later runs may overlap as they like. -/
theorem C105_read {C : Codec} (hC : C.Lawful) {U : Unicode} {file : List Nat} {alone rekey : Bool} {d₁ d₂ : Disk} {running₁ running₂ : List Disk} {key : List Nat} {i : Inst}
    (h : Relation.ReflTransGen (KeepingStep C U file alone rekey) (d₁, running₁) (d₂, running₂)) (hr : ∀ x ∈ running₁, x file = d₁ file) (hl : key.length = 32)
    (hs : SavedAs C d₁ file key i) (h0 : i.groupSize ≠ 0) (h1 : i.keyLength ≠ 0) (h2 : i.columns ≠ 0) (h3 : i.keyColumns ≠ 0) :
    ∃ key' j, key'.length = 32 ∧ (rekey = false → key' = key) ∧ Stored C d₂ file key' j ∧ Still i j := by
  obtain ⟨n, hn⟩ := hs
  have main : ∀ s : Disk × List Disk, Relation.ReflTransGen (KeepingStep C U file alone rekey) (d₁, running₁) s →
      FileHolds C file rekey key i s.1 ∧ ∀ x ∈ s.2, FileHolds C file rekey key i x := by
    intro s h
    induction h with
    | refl => exact ⟨⟨key, i, hl, fun _ => rfl, ⟨n, hn⟩, .refl i⟩, fun x hx => ⟨key, i, hl, fun _ => rfl, ⟨n, by rw [hr x hx]; exact hn⟩, .refl i⟩⟩
    | tail _ st ih => exact keepingStep_holds hC ⟨h0, h1, h2, h3⟩ st ih.1 ih.2
  obtain ⟨key', j, a1, a2, ⟨n', a3⟩, a4⟩ := (main _ h).1
  refine ⟨key', j, a1, a2, stored_of_dec a1 a3 (hC.right _ _ _ a1) ?_ ?_ ?_ ?_, a4⟩
  · rw [a4.groupSize]; exact h0
  · rw [a4.keyLength]; exact h1
  · rw [a4.columns]; exact h2
  · rw [a4.keyColumns]; exact h3

/-- **C105**, what holds: it is enough that a run is started only when no other is under way. -/
theorem C105_partial : C105_Statement true := by
  intro C hC U file rekey d₀ d₁ d₂ running₁ running₂ key i ha h hl hs h0 h1 h2 h3
  refine C105_read hC h ?_ hl hs h0 h1 h2 h3
  have main : ∀ s : Disk × List Disk, Relation.ReflTransGen (KeepingStep C U file true rekey) (d₀, []) s → s.2.length ≤ 1 ∧ ∀ x ∈ s.2, x file = s.1 file := by
    intro s h
    induction h with
    | refl => simp
    | tail _ st ih =>
      cases st with
      | starts hr =>
        have := hr rfl
        subst this
        simp
      | ends _ =>
        obtain ⟨i1, -⟩ := ih
        simp only [List.length_append, List.length_cons] at i1
        rename_i xs ys _ _ _
        have e1 : xs = [] := List.length_eq_zero_iff.1 (by omega)
        have e2 : ys = [] := List.length_eq_zero_iff.1 (by omega)
        subst e1 e2
        simp
      | dies =>
        obtain ⟨i1, -⟩ := ih
        simp only [List.length_append, List.length_cons] at i1
        rename_i xs ys _
        have e1 : xs = [] := List.length_eq_zero_iff.1 (by omega)
        have e2 : ys = [] := List.length_eq_zero_iff.1 (by omega)
        subst e1 e2
        simp
      | others e => exact ⟨ih.1, fun x hx => (ih.2 x hx).trans e.symm⟩
  exact (main _ ha).2

/-- a run with this radiogram, on the example file -/
theorem exStay_run {C : Codec} (hC : C.Lawful) (text : String) (h : (match newTextMessageRun unicode15 (fun _ => 0) exRadio [] exLoaded [lit text] (exIdTape ++ [0, 0, 0, 2 ^ 32]) with
      | some ((.ok m, i), _) => decide (m.radiogram = lit text) && decide (i.messages.map Msg.radiogram = [lit text]) | _ => false) = true) :
    ∃ r i, Keeping C unicode15 [1] false (exRunDisk C) r ∧ i.messages.map Msg.radiogram = [lit text] ∧ SavedAs C (afterRun (exRunDisk C) r) [1] exPFK i ∧
      (∀ d, afterRun d r [1] = afterRun (exRunDisk C) r [1]) ∧ Still exLoaded i := by
  let E : PwEnv := ⟨fun _ _ => [], fun _ => true⟩
  split at h
  · rename_i m i t hn
    simp only [Bool.and_eq_true, decide_eq_true_eq] at h
    obtain ⟨r, hr, -, -, h1⟩ := exRun_text hC E true hn
    obtain ⟨-, hd, tt, c, w1, w2, w3, -⟩ := h1 rfl
    have ht : ∃ t ∈ r.state.touched, t.path = [1] ∧ t.contents ≠ [] := ⟨tt, List.mem_of_mem_head? w1, w2, List.ne_nil_of_mem w3⟩
    have hd' : ∀ d, afterRun d r [1] = some (C.enc exPFK 0 (gobInst i)) := fun d => by
      rw [show afterRun d r [1] = r.state.disk [1] from if_pos ht]; exact hd
    refine ⟨r, i, ?_, h.2, ⟨0, hd' _⟩, fun d => by rw [hd', hd'], still_newMessage hn⟩
    exact .messages hr rfl (by simp [exNewCmd]) (fun p e => by cases e; decide) rfl
  · cases h

/-- The full statement is false: two runs have read the file; the first adds a message, then the second writes the file without it.  Nothing fails. -/
theorem C105_violated : ¬ C105_Statement false := by
  intro h
  obtain ⟨C, hC⟩ := exists_lawful
  obtain ⟨r, i, hk, hm, hs, -, hst⟩ := exStay_run hC "OP DE SM = HEJ" (by decide +kernel)
  obtain ⟨r', i', hk', hm', hs', he, hst'⟩ := exStay_run hC "OP DE SM = NEJ" (by decide +kernel)
  have run1 : Relation.ReflTransGen (KeepingStep C unicode15 [1] false false) (exRunDisk C, []) (afterRun (exRunDisk C) r, [exRunDisk C]) :=
    ((Relation.ReflTransGen.single (.starts (by simp))).tail (.starts (by simp))).tail (.ends (xs := []) hk)
  have run2 : Relation.ReflTransGen (KeepingStep C unicode15 [1] false false) (afterRun (exRunDisk C) r, [exRunDisk C]) (afterRun (afterRun (exRunDisk C) r) r', []) :=
    .single (.ends (xs := []) hk')
  have nz : exLoaded.groupSize ≠ 0 ∧ exLoaded.keyLength ≠ 0 ∧ exLoaded.columns ≠ 0 ∧ exLoaded.keyColumns ≠ 0 := by decide
  obtain ⟨key', j, a1, a2, a3, a4⟩ := h C hC unicode15 [1] false _ _ _ _ _ exPFK i run1 run2 rfl hs (by rw [hst.groupSize]; exact nz.1) (by rw [hst.keyLength]; exact nz.2.1)
    (by rw [hst.columns]; exact nz.2.2.1) (by rw [hst.keyColumns]; exact nz.2.2.2)
  have hkey := a2 rfl
  subst hkey
  obtain ⟨n, hn⟩ := hs'
  rw [← he] at hn
  have b3 := stored_of_dec (i := i') rfl hn (hC.right _ _ _ rfl) (by rw [hst'.groupSize]; exact nz.1) (by rw [hst'.keyLength]; exact nz.2.1) (by rw [hst'.columns]; exact nz.2.2.1)
    (by rw [hst'.keyColumns]; exact nz.2.2.2)
  let E : PwEnv := ⟨fun _ _ => [], fun _ => true⟩
  have hrd : Reads exWorld exOpen [1] := ⟨by simp [exOpen], rfl, rfl, rfl⟩
  obtain ⟨k, hl, s1⟩ := a3 E exWorld exOpen exOpen_blank hrd (.inl rfl)
  obtain ⟨k', hl', s2⟩ := b3 E exWorld exOpen exOpen_blank hrd (.inl rfl)
  rw [hl] at hl'
  cases hl'
  have c1 : k.inst.messages.map Msg.radiogram = [lit "OP DE SM = NEJ"] := by
    rw [← hm']
    clear hl a3 b3
    have := s2.messages
    generalize k.inst.messages = l at this
    generalize i'.messages = l' at this
    induction this with
    | nil => rfl
    | cons a _ ih => simp only [List.map_cons, a.radiogram, ih]
  rcases hm0 : i.messages with _ | ⟨m, ms⟩
  · rw [hm0] at hm; simp at hm
  rw [hm0] at hm
  simp only [List.map_cons, List.cons.injEq] at hm
  obtain ⟨m1, g1, e1⟩ := a4.messages 0 m (by rw [hm0]; rfl)
  obtain ⟨m2, g2, e2⟩ := (Still.same s1).messages 0 m1 g1
  have : k.inst.messages.map Msg.radiogram = lit "OP DE SM = HEJ" :: (k.inst.messages.drop 1).map Msg.radiogram := by
    rcases hk0 : k.inst.messages with _ | ⟨x, xs⟩
    · rw [hk0] at g2; simp at g2
    · rw [hk0] at g2
      simp only [List.getElem?_cons_zero, Option.some.injEq] at g2
      subst g2
      simp [e2.radiogram, e1.radiogram, hm.1]
  rw [c1] at this
  simp only [List.cons.injEq] at this
  exact absurd this.1 (by decide +kernel)

/-- the conditions of `C105_partial` can be met by a run that adds a message to a store with a key -/
example : ∃ (C : Codec) (d d' : Disk) (i : Inst), C.Lawful ∧ Relation.ReflTransGen (KeepingStep C unicode15 [1] true false) (d, []) (d', []) ∧ SavedAs C d [1] exPFK i ∧
    i.groupSize ≠ 0 ∧ i.keyLength ≠ 0 ∧ i.columns ≠ 0 ∧ i.keyColumns ≠ 0 ∧ i.keys ≠ [] ∧ d [1] ≠ d' [1] := by
  obtain ⟨C, hC⟩ := exists_lawful
  obtain ⟨r, i, hk, hm, ⟨n, hs⟩, -, hst⟩ := exStay_run hC "OP DE SM = HEJ" (by decide +kernel)
  refine ⟨C, exRunDisk C, afterRun (exRunDisk C) r, exStation, hC, (Relation.ReflTransGen.single (.starts (by simp))).tail (.ends (xs := []) hk), ⟨0, set_same _ _ _⟩, by decide, by decide, by decide,
    by decide, by decide, ?_⟩
  intro e
  rw [hs, show exRunDisk C [1] = some _ from set_same _ _ _] at e
  have := congrArg (fun o => o.bind (C.dec exPFK)) e
  simp only [Option.bind_some] at this
  rw [hC.right _ _ _ rfl, hC.right _ _ _ rfl] at this
  have := congrArg (fun w => (w.map (fun w => (w.messages.getD []).length))) this
  have hlen : i.messages.length = 1 := by have := congrArg List.length hm; simpa using this
  rcases hm0 : i.messages with _ | ⟨m, ms⟩
  · rw [hm0] at hlen; simp at hlen
  · simp [gobInst, hm0, exStation, sent, show ex2.messages = [] from rfl] at this

end K431
