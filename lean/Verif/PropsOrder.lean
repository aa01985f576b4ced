import Verif.OrderLemmas
import Verif.PropsInit
import Verif.PropsStoreCmd

/-!
# Every file that the program has written is in order, and all its keys come from the random source: C80, C81
-/

namespace K431
open Spec

/-- **C80.**  Start with a file system in which nothing can be opened as a file of keys.  After any number of runs of the program's commands, by any stations, with any options, passwords, answers and
failures, also killed at any time, and any copying, removing and writing of other files: whoever loads a file with an instance that holds nothing yet, gets a store in order. -/
theorem C80_order {C : Codec} (hC : C.Lawful) {U : Unicode} {disk disk' : Disk} (h0 : ∀ p c, disk p = some c → Opaque C c) {tapes : List (List Nat)} (h : History C U disk tapes disk')
    {E : PwEnv} {W : World} {k k' : Krypto} (hb : Blank k) (hl : load C E W disk' k = some (.ok (), k')) : InOrder U k'.inst := by
  obtain ⟨made, -, hd⟩ := history_after hC h0 h
  exact (load_kept hd hb hl).inOrder

/-- **C81.**  In such a history, each run that makes keys makes them of the letters that the random source delivers to it: each id is followed by its pad, and no letter goes into two keys.  All keys that
anybody finds in any file are such keys, with the letters unchanged, and in a file no two keys are the same one. -/
theorem C81_origin {C : Codec} (hC : C.Lawful) {U : Unicode} {disk disk' : Disk} (h0 : ∀ p c, disk p = some c → Opaque C c) {tapes : List (List Nat)} (h : History C U disk tapes disk') :
    ∃ made : List (List (Runes × Runes)), List.Forall₂ (fun t m => InSequence m (wordLetters t)) tapes made ∧
      ∀ (E : PwEnv) (W : World) (k k' : Krypto), Blank k → load C E W disk' k = some (.ok (), k') → (k'.inst.keys.map (fun x => (x.id.val, x.runes))).Subperm made.flatten := by
  obtain ⟨made, h1, hd⟩ := history_after hC h0 h
  refine ⟨made, h1, fun E W k k' hb hl => ?_⟩
  have hk := load_kept hd hb hl
  refine List.subperm_of_subset ?_ ?_
  · have := nodup_of_distinctNames hk.names
    refine List.Nodup.of_map Prod.fst ?_
    rw [List.map_map]
    exact this
  · intro p hp
    obtain ⟨x, hx, rfl⟩ := List.mem_map.1 hp
    exact (hk.keys x hx).origin

/-- **C80**, what the other properties ask of a store: a store in order has all settings other than 0; its keys are well-formed; the ids of its keys and messages can be told apart on the lines of a
list. -/
theorem C80_usable {U : Unicode} (hU : U.Lawful) {i : Inst} (h : InOrder U i) :
    (i.groupSize ≠ 0 ∧ i.keyLength ≠ 0 ∧ i.columns ≠ 0 ∧ i.keyColumns ≠ 0) ∧ WellFormed i.keys ∧
    (∀ x ∈ i.keys, Printable U x.id.val ∧ x.id.val.length ≤ i.groupSize) ∧ (∀ m ∈ i.messages, m.id ≠ [] ∧ Printable U m.id ∧ m.id.length ≤ 4) := by
  refine ⟨h.kept.nonzero, ⟨nodup_of_distinctNames h.names, fun k hk => (h.keys k hk).idLetters⟩, ?_, ?_⟩
  · intro x hx
    have hk := h.keys x hx
    refine ⟨⟨?_, ?_⟩, by rw [hk.idLength]⟩
    · intro e
      have h1 := hk.idLength
      have h2 := h.settings.groupSize
      rw [e] at h1
      simp at h1
      omega
    · intro c hc
      have hl := hk.idLetters c hc
      refine ⟨?_, ?_, isSpace_letter hU hl⟩
      · unfold IsLetter at hl; unfold validRune; simp; omega
      · unfold IsLetter at hl; omega
  · intro m hm
    obtain ⟨h4, ha⟩ := h.messages m hm
    have hne := h.kept.named m hm
    refine ⟨hne, ⟨hne, ?_⟩, by omega⟩
    intro c hc
    have hl := ha c hc
    refine ⟨?_, ?_, ?_⟩
    · unfold IsAlnum at hl; unfold validRune; simp; omega
    · unfold IsAlnum at hl; omega
    · have hc' : c ∈ alphabet ∧ c ≠ 32 := by
        unfold IsAlnum at hl
        refine ⟨?_, by omega⟩
        have : ∀ n : Fin 123, ((65 ≤ (n.val : Int) ∧ (n.val : Int) ≤ 90) ∨ (97 ≤ (n.val : Int) ∧ (n.val : Int) ≤ 122) ∨ (48 ≤ (n.val : Int) ∧ (n.val : Int) ≤ 57)) →
            (n.val : Int) ∈ alphabet := by decide +kernel
        have h2 := this ⟨c.toNat, by omega⟩
        simp only [Int.toNat_of_nonneg (show 0 ≤ c by omega)] at h2
        exact h2 hl
      exact hU.isSpace_legend c hc'.1 hc'.2

/-- `initialize --yes --call …` leaves a store without keys -/
theorem init_stored {C : Codec} (hC : C.Lawful) (E : PwEnv) (call : String) : ∃ r i, initCommand C E unicode15 exInitEnv (exInit call) exDisk = some r ∧
    Stored C r.state.disk [1] exPFK i ∧ i.groupSize = 5 ∧ i.keys = [] := by
  rw [initCommand_example]
  obtain ⟨c, hi⟩ := exInitBase_inst call
  obtain ⟨f1, f2⟩ := exInitBase_frame call
  obtain ⟨s', hd, -, -, -, -, hst⟩ := saveStep_done hC (E := E) (W := exWorld) (s := ⟨exDisk, { exInitBase call with pfk := some exPFK }, [], []⟩) (path := [1])
    (key := exPFK) ⟨by dsimp only; rw [f1]; simp, by dsimp only; rw [f1]; rfl, rfl, rfl⟩ rfl (by decide) f2 rfl
  refine ⟨_, _, hd, hst (by dsimp only; rw [hi]; simp) (by dsimp only; rw [hi]; simp) (by dsimp only; rw [hi]; simp) (by dsimp only; rw [hi]; simp), ?_, ?_⟩ <;> dsimp only <;> rw [hi]

/-- `keys --new 1` runs on a store with room for a key -/
theorem keysNew_runs {C : Codec} {E : PwEnv} {disk : Disk} {k : Krypto} (hl : load C E exWorld disk (prepared E exAccess [1]).2 = some (.ok (), k)) (hkey : k.pfk = some exPFK)
    (hg : k.inst.groupSize ≠ 0) (hroom : k.inst.keys.length < 26 ^ k.inst.groupSize) :
    ∃ tape r, keysCommand C E unicode15 { exKeysEnv with tape := tape } exKeysNew disk = some r := by
  obtain ⟨tape, ht⟩ := (C24_returns unicode15 unicode15_lawful 0 (0 + 365 * 24 * 3600 * 1000000000) [lit "OP"] k.inst hg).1 hroom []
  rw [List.nil_append] at ht
  refine ⟨tape, ?_⟩
  have hp : (prepared E exKeysNew.access exKeysNew.file).1 = .ok () := by
    rw [show exKeysNew.access = exAccess from rfl, show exKeysNew.file = [1] from rfl, prepared_example]
  generalize hV : ({ exKeysEnv with tape := tape } : KeysEnv) = V
  have hop : openStore C E V.loadW exKeysNew.access exKeysNew.file disk = some (.go ⟨disk, k, [], []⟩) := openStore_ok hp (by rw [← hV]; exact hl)
  unfold keysCommand
  rw [if_neg (by decide), hop, andThen_skip (f := keysDelete C E unicode15 V exKeysNew) (fun s => rfl), andThen_go,
    andThen_skip (f := keysImport C E unicode15 V exKeysNew) (fun s => rfl), andThen_skip (f := keysExport C E unicode15 V exKeysNew) (fun s => rfl)]
  have hgen : ∃ i t', generateKeys unicode15 V.clock V.now 1 exKeysNew.expire exKeysNew.filter.keepers k.inst V.tape = some (.ok (), i, t') := by
    rw [← hV]
    obtain ⟨⟨a, b, c⟩, hq⟩ := Option.ne_none_iff_exists'.1 ht
    refine ⟨b, c, ?_⟩
    show Option.map _ (generateLoop unicode15 (fun _ => 0) (0 + 365 * 24 * 3600 * 1000000000) [lit "OP"] 1 k.inst tape) = _
    unfold generateLoop
    rw [hq]
    rfl
  obtain ⟨i, t', hgen⟩ := hgen
  have hn : keysNew C E unicode15 V exKeysNew ⟨disk, k, [], []⟩ = saveStep C E V.newW ⟨disk, { k with inst := i }, [], []⟩ := by
    unfold keysNew
    rw [show exKeysNew.newKeys = some 1 from rfl]
    dsimp only
    rw [if_pos (by decide), hgen]
    rfl
  obtain ⟨c, hc⟩ := saveStep_total (C := C) (E := E) (W := V.newW) (s := ⟨disk, { k with inst := i }, [], []⟩) (key := exPFK) hkey (prepared_opened hl).overwrite
  rw [hn, hc]
  cases c with
  | stop oc s => exact ⟨_, rfl⟩
  | go s =>
    rw [andThen_go]
    exact ⟨_, rfl⟩

/-- non-vacuity: `initialize`, then `keys --new 1`; the file can be loaded, holds a key and is in order -/
example {C : Codec} (hC : C.Lawful) (E : PwEnv) : ∃ tapes disk k, History C unicode15 exDisk tapes disk ∧
    load C E exWorld disk (prepared E exAccess [1]).2 = some (.ok (), k) ∧ k.inst.keys.length = 1 ∧ InOrder unicode15 k.inst := by
  obtain ⟨r, i, hr, hst, hg, hk⟩ := init_stored hC E "SA6MWA"
  have step1 : FileStep C unicode15 exDisk exInitEnv.tape r.state.disk := .init hr (.inl rfl)
  have hb := prepared_blank E exAccess [1]
  have hrd : Reads exWorld (prepared E exAccess [1]).2 [1] := by
    rw [prepared_example]
    exact ⟨by simp, rfl, rfl, rfl⟩
  have hw : LoadsWith E exWorld (prepared E exAccess [1]).2 exPFK := by rw [prepared_example]; exact .inl rfl
  obtain ⟨k, hl, hs⟩ := hst E exWorld _ hb hrd hw
  have hi := C80_order hC (fun _ _ h => by cases h) (.step .start step1) hb hl
  obtain ⟨⟨n1, n2, n3, n4⟩, -⟩ := C80_usable unicode15_lawful hi
  have hk0 : k.inst.keys.length = 0 := by have := hs.keys.length_eq; rw [this, hk]; rfl
  have hpath : k.persistence = [1] ∧ k.pfk = some exPFK := by
    rw [prepared_example] at hl
    obtain ⟨p, key, c, w, q1, q2, q3, q4, rfl, q5⟩ := load_ok hl
    cases q1
    refine ⟨rfl, ?_⟩
    rcases q5 with q5 | ⟨q5, -⟩
    · exact q5.symm
    · cases q5
  obtain ⟨tape, r2, hr2⟩ := keysNew_runs hl hpath.2 n1 (by rw [hk0]; exact Nat.pow_pos (by decide))
  have step2 : FileStep C unicode15 r.state.disk tape r2.state.disk := .keys (V := { exKeysEnv with tape := tape }) hr2 (fun _ _ _ h => by cases h) (.inl rfl)
  have hp : (prepared E exAccess [1]).1 = .ok () := by rw [prepared_example]
  obtain ⟨-, H⟩ := C75_new_keys hC hr2 rfl rfl (by decide) rfl rfl hp hl n1
  obtain ⟨-, -, new, e, hlen, -, -, -, -, hst2⟩ := H [1] exPFK ⟨by rw [hpath.1]; simp, by rw [hpath.1]; rfl, rfl, rfl⟩ rfl hpath.2 (by decide) n2 n3 n4 (fun x hx => by cases hx) (by simp [exKeysNew])
  obtain ⟨k2, hl2, hs2⟩ := hst2 E exWorld _ hb hrd hw
  have hall := History.step (.step .start step1) step2
  refine ⟨_, _, k2, hall, hl2, ?_, C80_order hC (fun _ _ h => by cases h) hall hb hl2⟩
  have := hs2.keys.length_eq
  simp only [List.length_append, hk0, hlen] at this
  rw [this]; rfl

/-- the letters of some words, one of which is passed over; a key made of them after a rejected id -/
example : wordLetters [3 <<< 32, 2 ^ 63 - 1, 2 ^ 63 + 25 <<< 32 + 7] = lit "DZ" := by decide +kernel
example : InSequence [(lit "AB", lit "QRST"), (lit "CD", lit "UVWX")] (lit "ABQRSTABCDUVWXYZ") :=
  .cons [] (.cons (lit "AB") (.nil _))

end K431
