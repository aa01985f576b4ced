import Verif.HistLemmas
import Verif.PropsMessages
import Mathlib.Logic.Relation

/-!
# C14: no key is used twice, over the whole life of an instance
-/

namespace K431
open Spec

/-- **C14**, full statement: start with a store whose key ids are pairwise different strings of letters, each in its own
array.  After any history of generating, deleting, importing and marking keys, creating, enciphering, deciphering and deleting messages
-- calls that succeed or fail -- the list of keys consumed by the successful Enciphers, one entry per chunk,
has no duplicates. -/
def C14_Statement (P : Inst → Msg → Prop) : Prop :=
  ∀ (U : Unicode), U.Lawful → ∀ (inst : Inst) (h : Hist), inst.groupSize ≠ 0 → WellFormed inst.keys → StoreOk U inst →
    Relation.ReflTransGen (HStep U P) ⟨inst, []⟩ h → h.spent.Nodup

/-- the history after a call of `NewTextMessage`, with all overwritten arrays filled with -1 -/
def exSend (h : Hist) (args : List String) : Hist :=
  match args.map lit with
  | [] => h
  | r :: rest =>
    match parseRadiogram unicode15 exRadio h.inst.messages r (exIdTape ++ [0, 0, 0, 2 ^ 32]) with
    | none => h
    | some (p, _) => ⟨(newTextMessage unicode15 (fun _ => -1) [] (fun _ => p) h.inst (r :: rest)).2,
        h.spent ++ (match handed unicode15 h.inst (r :: rest) p with
          | some (i, m) => consumed i.keys (encipherT unicode15 (fun _ => -1) [] i m).1
          | none => [])⟩

theorem exSend_step (P : Inst → Msg → Prop) (h : Hist) (args : List String)
    (hP : ∀ r rest p t' i m, args.map lit = r :: rest →
      parseRadiogram unicode15 exRadio h.inst.messages r (exIdTape ++ [0, 0, 0, 2 ^ 32]) = some (p, t') →
      handed unicode15 h.inst (r :: rest) p = some (i, m) → P i m) :
    Relation.ReflTransGen (HStep unicode15 P) h (exSend h args) := by
  unfold exSend
  rcases ha : args.map lit with _ | ⟨r, rest⟩
  · exact .refl
  · simp only
    rcases hp : parseRadiogram unicode15 exRadio h.inst.messages r (exIdTape ++ [0, 0, 0, 2 ^ 32]) with _ | ⟨p, t'⟩
    · exact .refl
    · refine .single ?_
      have := HStep.create (P := P) (noise := fun _ => -1) (f := []) (rest := rest) (sp := h.spent)
        (o := (newTextMessage unicode15 (fun _ => -1) [] (fun _ => p) h.inst (r :: rest)).1) hp rfl
        (fun i m hh => hP r rest p t' i m ha hp hh)
      exact this

/-- The statement is false: a message that comes with a key id does not mark its key; two such messages are enciphered with the same
key. -/
theorem C14_violated : ¬ C14_Statement (fun _ _ => True) := by
  intro h
  have := h unicode15 unicode15_lawful exStation (exSend (exSend ⟨exStation, []⟩ ["OP DE SM = HEJ", "", "A"]) ["OP DE SM = HOPP", "", "A"])
    (by decide) (by decide) (by decide)
    ((exSend_step _ _ _ (fun _ _ _ _ _ _ _ _ _ => trivial)).trans (exSend_step _ _ _ (fun _ _ _ _ _ _ _ _ _ => trivial)))
  revert this
  decide +kernel

/-- what happened: key 1 twice -/
example : (exSend (exSend ⟨exStation, []⟩ ["OP DE SM = HEJ", "", "A"]) ["OP DE SM = HOPP", "", "A"]).spent = [1, 1] := by
  decide +kernel

/-- without further arguments the message comes without a key id -/
theorem handed_auto {U : Unicode} {E : RadioEnv} {inst i : Inst} {m : Msg} {r : Runes} {p : Outcome Msg} {t t' : Tape}
    (hp : parseRadiogram U E inst.messages r t = some (p, t')) (h : handed U inst [r] p = some (i, m)) : m.keyId.val = [] := by
  rcases p with p | e | _
  · simp only [handed] at h
    split at h
    · simp only [Option.some.injEq, Prod.mk.injEq] at h
      rw [← h.2]
      unfold parseRadiogram at hp
      simp only at hp
      repeat' split at hp
      all_goals first
        | (cases hp; done)
        | (simp only [Option.some.injEq, Prod.mk.injEq, Outcome.ok.injEq] at hp
           obtain ⟨rfl, _⟩ := hp; rfl)
    · cases h
  · cases h
  · cases h

/-- four radiograms: a long one that fails, a short one, a long one that fails, a short one -/
def exFour : Hist :=
  exSend (exSend (exSend (exSend ⟨exStation, []⟩ ["OP DE SM = EEEEEEEEEEEEEEEEEE"]) ["OP DE SM = HEJ"])
    ["OP DE SM = EEEEEEEEEEEEEEEEEE"]) ["OP DE SM = HOPP"]

/-- The statement is false even if no message comes with a key id: a failing Encipher overwrites the id of its key with random
runes, most of them not characters; two such ids are equal as strings, so looking up one key finds the other, which has been used
before. -/
theorem C14_violated_auto : ¬ C14_Statement (fun _ m => m.keyId.val = []) := by
  intro h
  have hP : ∀ (h : Hist) (s : String), Relation.ReflTransGen (HStep unicode15 (fun _ m => m.keyId.val = [])) h (exSend h [s]) := by
    intro h s
    apply exSend_step
    intro r rest p t' i m e hp hh
    simp only [List.map_cons, List.map_nil, List.cons.injEq] at e
    obtain ⟨rfl, rfl⟩ := e
    exact handed_auto hp hh
  have := h unicode15 unicode15_lawful exStation exFour (by decide) (by decide) (by decide)
    ((((hP _ _).trans (hP _ _)).trans (hP _ _)).trans (hP _ _))
  revert this
  decide +kernel

/-- what happened: key 1 twice, although both keys are marked afterwards -/
example : exFour.spent = [1, 1] ∧ exFour.inst.keys.map (fun k => k.id) = [⟨1, [-1]⟩, ⟨2, [-1]⟩] := by decide +kernel

/-- The invariant of histories. -/
structure HInv (h : Hist) : Prop where
  group : h.inst.groupSize ≠ 0
  addrs : Addrs h.inst
  nodup : h.spent.Nodup
  old : ∀ a ∈ h.spent, a < h.inst.nextAddr
  marked : ∀ k ∈ h.inst.keys, k.id.addr ∈ h.spent → k.used = true

theorem HInv.flow {inst inst' : Inst} {sp : List Nat} (h : HInv ⟨inst, sp⟩) (hf : Flow inst inst') : HInv ⟨inst', sp⟩ := by
  have f := hf h.addrs
  refine ⟨by rw [f.group]; exact h.group, f.addrs, h.nodup, fun a ha => Nat.lt_of_lt_of_le (h.old a ha) f.next, ?_⟩
  intro k hk hm
  rcases f.origin k hk with hn | ⟨k0, hk0, ha, hu⟩
  · have := h.old _ hm; simp only at this; omega
  · exact hu (h.marked k0 hk0 (by rw [ha]; exact hm))

theorem HInv.encipher {U : Unicode} (hU : U.Lawful) {noise : Nat → Rune} {f : Runes} {inst inst' : Inst} {m m' : Msg}
    {o : Outcome (List Chunk)} {sp : List Nat} (h : HInv ⟨inst, sp⟩) (he : encipherT U noise f inst m = (o, inst', m'))
    (hauto : m.keyId.val = []) (hd : Distinguishable U inst.keys) : HInv ⟨inst', sp ++ consumed inst.keys o⟩ := by
  obtain ⟨c1, c2, c3⟩ := consumed_spec hU he h.addrs hauto hd
  have hi := h.flow (Keeps.encipherT hU h.group he hauto hd).flow
  have hnx := (Keeps.encipherT hU h.group he hauto hd).next
  refine ⟨hi.group, hi.addrs, ?_, ?_, ?_⟩
  · simp only [List.nodup_append]
    refine ⟨h.nodup, c1, ?_⟩
    intro a ha b hb e
    subst e
    obtain ⟨k, hk, rfl, hu⟩ := c2 a hb
    rw [h.marked k hk ha] at hu; cases hu
  · intro a ha
    rcases List.mem_append.1 ha with ha | ha
    · exact hi.old a ha
    · obtain ⟨k, hk, rfl, _⟩ := c2 a ha
      have := h.addrs.fresh k hk
      simp only at this hnx ⊢
      omega
  · intro k hk hm
    rcases List.mem_append.1 hm with hm | hm
    · exact hi.marked k hk hm
    · exact c3 k hk hm

/-- **C14**, what holds: if every Encipher is called with a message without key id, on a store whose key ids are still
pairwise different strings (letters, or whatever failures have left), no key is ever used twice: not within a message,
not by another message, not after failed calls, deletions or imports.  The store may start in any state in which each id has its own
array.  Missing: messages given a key id, and stores with ids that are equal as strings. -/
theorem C14_partial (U : Unicode) (hU : U.Lawful) (inst : Inst) (h : Hist) (hg : inst.groupSize ≠ 0)
    (ha : (inst.keys.map (fun k => k.id.addr)).Nodup) (hn : ∀ k ∈ inst.keys, k.id.addr < inst.nextAddr)
    (hr : Relation.ReflTransGen (HStep U (fun i m => m.keyId.val = [] ∧ Distinguishable U i.keys)) ⟨inst, []⟩ h) :
    h.spent.Nodup ∧ ∀ k ∈ h.inst.keys, k.id.addr ∈ h.spent → k.used = true := by
  suffices HInv h from ⟨this.nodup, this.marked⟩
  induction hr with
  | refl => exact ⟨hg, ⟨ha, hn⟩, by simp, by simp, by simp⟩
  | tail _ hstep ih =>
    cases hstep with
    | newKey hk => exact ih.flow (Flow.newKey hk)
    | generate hk => exact ih.flow (Flow.generateKeys hk)
    | deleteKey noise ids => exact ih.flow (Flow.deleteKey U _ _ _)
    | deleteKeyByString noise args => exact ih.flow (Flow.deleteKey U _ _ _)
    | deleteKeysBySummary noise lines => exact ih.flow (Flow.deleteBySummary U _ _ _)
    | importKeys noise o filter loaded => exact ih.flow (Flow.importKeys U _ _ _ _ _)
    | mark id => exact ih.flow (Flow.mark U _ _)
    | deleteMessage noise ids => exact ih.flow (Flow.deleteMessage _ _ _)
    | deleteMessageByString noise args => exact ih.flow (Flow.deleteMessage _ _ _)
    | decipher _ hd => exact ih.flow ((Flow.decipher hd).trans (Flow.messages _ _))
    | tryDecipher _ hd => exact ih.flow ((Flow.tryDecipher hd).trans (Flow.messages _ _))
    | encipher _ he hP => exact (ih.encipher hU he hP.1 hP.2).flow (Flow.messages _ _)
    | encipherOther he hP => exact ih.encipher hU he hP.1 hP.2
    | @create noise E f inst inst' r rest t t' p o sp hp hm hP =>
      rcases newTextMessage_flow hm with ⟨h1, h2⟩ | ⟨i, m, n, h1, h2, i2, h3, _, h5⟩
      · rw [h1]
        simp only [List.append_nil]
        exact ih.flow h2
      · rw [h1]
        simp only
        obtain ⟨q1, q2⟩ := hP i m h1
        have hi : HInv ⟨i, sp⟩ := by rw [h2]; exact ih.flow (Flow.alloc _ n)
        rw [h3] at h5
        exact (hi.encipher hU (m' := (encipherT U noise f i m).2.2) (inst' := (encipherT U noise f i m).2.1) rfl q1 q2).flow h5

/-- non-vacuity: a failing call and two successful ones consume two keys -/
example :
    let h := exSend (exSend (exSend ⟨exStation, []⟩ ["OP DE SM = EEEEEEEEEEEEEEEEEE"]) ["OP DE SM = HEJ"]) ["OP DE SM = HOPP"]
    h.spent = [1, 2] ∧ h.inst.messages.length = 2 ∧ Distinguishable unicode15 h.inst.keys := by decide +kernel

/-- ... and it is a history as in the theorem -/
example : ∃ h, Relation.ReflTransGen (HStep unicode15 (fun i m => m.keyId.val = [] ∧ Distinguishable unicode15 i.keys)) ⟨exStation, []⟩ h ∧
    h.spent = [1, 2] := by
  have hP : ∀ (h : Hist) (s : String), Distinguishable unicode15 h.inst.keys →
      Relation.ReflTransGen (HStep unicode15 (fun i m => m.keyId.val = [] ∧ Distinguishable unicode15 i.keys)) h (exSend h [s]) := by
    intro h s hd
    apply exSend_step
    intro r rest p t' i m e hp hh
    simp only [List.map_cons, List.map_nil, List.cons.injEq] at e
    obtain ⟨rfl, rfl⟩ := e
    refine ⟨handed_auto hp hh, ?_⟩
    rcases p with p | e | _
    · simp only [handed] at hh
      split at hh
      · simp only [Option.some.injEq, Prod.mk.injEq] at hh; rw [← hh.1]; exact hd
      · cases hh
    · cases hh
    · cases hh
  exact ⟨_, ((hP ⟨exStation, []⟩ "OP DE SM = EEEEEEEEEEEEEEEEEE" (by decide)).trans (hP _ "OP DE SM = HEJ" (by decide +kernel))).trans
    (hP _ "OP DE SM = HOPP" (by decide +kernel)), by decide +kernel⟩

end K431
