import Verif.HelpLemmas

/-!
# C131: `keys --new` makes keys as its help says
-/

namespace K431
open Spec

/-- `keys --new n` on a file that can be loaded and written, without other operations; `new` are the keys made. -/
structure MakesKeys (C : Codec) (E : PwEnv) (U : Unicode) (V : KeysEnv) (o : KeysCmd) (disk : Disk) (r : Course) (k : Krypto) (n : Int) (path key : List Nat) : Prop where
  runs : keysCommand C E U V o disk = some r
  noDelete : o.delete = false
  asked : o.newKeys = some n
  positive : 0 < n
  noImport : o.importFile = none
  noExport : o.exportFile = none
  noOutput : o.output = none
  access : (prepared E o.access o.file).1 = .ok ()
  opened : load C E V.loadW disk (prepared E o.access o.file).2 = some (.ok (), k)
  writes : Reads V.newW k path
  room : V.newW.room = none
  fileKey : k.pfk = some key
  keySize : key.length = 32
  groupSize : k.inst.groupSize ≠ 0
  keyLength : k.inst.keyLength ≠ 0
  columns : k.inst.columns ≠ 0
  keyColumns : k.inst.keyColumns ≠ 0
  date : ∀ x, o.expire = some x → ∃ e, x = .ok e

/-- **C131**, `--valid` (cmd/krypto431/krypto431.go: "Select or make keys that do not expire within n days and are not compromised"): the keys made with `--valid d` do not expire within `d` days. -/
def C131_Valid : Prop := ∀ (C : Codec) (E : PwEnv) (U : Unicode) (V : KeysEnv) (o : KeysCmd) (disk : Disk) (r : Course) (k : Krypto) (n : Int) (path key : List Nat), C.Lawful → U.Lawful →
  MakesKeys C E U V o disk r k n path key → o.expire = none → ∀ d, o.filter.valid = some d →
  ∃ new, new.length = n.toNat ∧ Stored C r.state.disk path key { k.inst with keys := k.inst.keys ++ new } ∧ ∀ x ∈ new, V.now + d * 86400 * 10 ^ 9 < x.expires ∧ x.compromised = false

/-- **C131**, `--keepers` ("Keepers of keys (new/filter), omit on new will assign key(s) to you"): the keys made without `--keepers` are kept by the own station. -/
def C131_Own : Prop := ∀ (C : Codec) (E : PwEnv) (U : Unicode) (V : KeysEnv) (o : KeysCmd) (disk : Disk) (r : Course) (k : Krypto) (n : Int) (path key : List Nat), C.Lawful → U.Lawful →
  MakesKeys C E U V o disk r k n path key → o.filter.keepers = [] →
  ∃ new, new.length = n.toNat ∧ Stored C r.state.disk path key { k.inst with keys := k.inst.keys ++ new } ∧ ∀ x ∈ new, InFold U k.inst.callSign x.names

/-- **C131**, what holds: the keys made are not compromised; they do not expire within `d` days if `d` is less than 365 and no date was given, or if the date given is later; and they are kept by the keepers given (except
the own call-sign, once).  Missing: `--valid` with more days, which is ignored, and the assignment to the own station, which is not made: without `--keepers` the keys are anonymous. -/
theorem C131_partial {C : Codec} (hC : C.Lawful) {E : PwEnv} {U : Unicode} {V : KeysEnv} {o : KeysCmd} {disk : Disk} {r : Course} {k : Krypto} {n : Int} {path key : List Nat}
    (h : MakesKeys C E U V o disk r k n path key) :
    r.outcome = .ok () ∧ ∃ new, new.length = n.toNat ∧ Stored C r.state.disk path key { k.inst with keys := k.inst.keys ++ new } ∧ ∀ x ∈ new,
      x.compromised = false ∧ (o.filter.keepers = [] → x.names = []) ∧ x.names.Perm ((vettedKeepers U o.filter.keepers).eraseP (fun n => decide (SameFold U k.inst.callSign n))) ∧
      ∀ d : Int, (o.expire = none ∧ d < 365 ∨ ∃ e, o.expire = some (.ok e) ∧ V.now + d * 86400 * 10 ^ 9 < e) → V.now + d * 86400 * 10 ^ 9 < x.expires := by
  obtain ⟨h1, -, new, e, q1, q2, q3, q4, -, q6⟩ := (C75_new_keys hC h.runs h.noDelete h.asked h.positive h.noImport h.noExport h.access h.opened h.groupSize).2 path key h.writes h.room h.fileKey h.keySize
    h.keyLength h.columns h.keyColumns h.date (by rw [h.noOutput]; simp)
  refine ⟨h1 h.noOutput, new, q1, q6, fun x hx => ⟨(q4 x hx).1.good, ?_, (q4 x hx).2, ?_⟩⟩
  · intro hk
    have := (q4 x hx).2
    rw [hk] at this
    exact List.perm_nil.1 this
  · intro d hd
    rw [(q4 x hx).1.expires]
    rcases hd with ⟨hn, hd⟩ | ⟨e', he, hd⟩
    · rw [q2 hn]; omega
    · have := q3 _ he
      simp only [Outcome.ok.injEq] at this
      rw [← this]; exact hd

theorem exMakesKeys (f : KeyOpts) : ∃ (C : Codec) (E : PwEnv) (V : KeysEnv) (r : Course) (k : Krypto), C.Lawful ∧ MakesKeys C E unicode15 V (exNewWith f) (exStoreDisk C) r k 1 [1] exPFK ∧ V.now = 0 := by
  obtain ⟨C, E, V, r, k, hC, hr, hp, hl, h0, hreads, hroom, hkey, h1, h2, h3, hnow, -⟩ := exNewWith_runs f
  exact ⟨C, E, V, r, k, hC, ⟨hr, rfl, rfl, by decide, rfl, rfl, rfl, hp, hl, hreads, hroom, hkey, by decide, h0, h1, h2, h3, fun x hx => by cases hx⟩, hnow⟩

/-- the keys made are the same in every description of the file -/
theorem made_same {C : Codec} {disk : Disk} {i : Inst} {new new' : List Key} (h : Stored C disk [1] exPFK { i with keys := i.keys ++ new }) (h' : Stored C disk [1] exPFK { i with keys := i.keys ++ new' })
    {x : Key} (hn : new' = [x]) : ∃ y ∈ new, SameKey y x := by
  have := (stored_unique h h').keys
  dsimp only at this
  subst hn
  have hlen : new.length = 1 := by
    have := this.length_eq
    simp only [List.length_append, List.length_singleton] at this
    omega
  obtain ⟨y, rfl⟩ := List.length_eq_one_iff.1 hlen
  refine ⟨y, by simp, ?_⟩
  have hr := List.rel_reverse this
  rw [List.reverse_append, List.reverse_append] at hr
  simp only [List.reverse_singleton, List.singleton_append] at hr
  cases hr with
  | cons h _ => exact h

/-- **C131** is violated: `keys --new 1 --valid 1000` makes a key that expires after 365 days, and `keys --new 1` makes a key that has no keeper. -/
theorem C131_violated : ¬ C131_Valid ∧ ¬ C131_Own := by
  constructor
  · intro hall
    obtain ⟨C, E, V, r, k, hC, h, hnow⟩ := exMakesKeys { keepers := [lit "OP"], valid := some 1000 }
    obtain ⟨new, hlen, hst, hx⟩ := hall _ _ _ _ _ _ _ _ _ _ _ hC unicode15_lawful h rfl 1000 rfl
    obtain ⟨x, rfl⟩ := List.length_eq_one_iff.1 hlen
    obtain ⟨-, -, new', e, q1, q2, -, q4, -, q6⟩ := (C75_new_keys hC h.runs h.noDelete h.asked h.positive h.noImport h.noExport h.access h.opened h.groupSize).2 [1] exPFK h.writes h.room h.fileKey h.keySize
      h.keyLength h.columns h.keyColumns h.date (by rw [h.noOutput]; simp)
    obtain ⟨y, hy, hs⟩ := made_same q6 hst rfl
    have h1 := (hx x (by simp)).1
    rw [← hs.expires, (q4 y hy).1.expires, q2 rfl, hnow] at h1
    omega
  · intro hall
    obtain ⟨C, E, V, r, k, hC, h, -⟩ := exMakesKeys {}
    obtain ⟨new, hlen, hst, hx⟩ := hall _ _ _ _ _ _ _ _ _ _ _ hC unicode15_lawful h rfl
    obtain ⟨x, rfl⟩ := List.length_eq_one_iff.1 hlen
    obtain ⟨-, new', q1, q6, q4⟩ := C131_partial hC h
    obtain ⟨y, hy, hs⟩ := made_same q6 hst rfl
    have h1 := (q4 y hy).2.1 rfl
    have h2 : x.names = y.names := hs.keepers.symm
    obtain ⟨s, hm, -⟩ := hx x (by simp)
    rw [h2, h1] at hm
    cases hm

/-- non-vacuity of `C131_partial`: `keys --new 1 --valid 30 --keepers OP` on the example file -/
example : ∃ (C : Codec) (E : PwEnv) (V : KeysEnv) (r : Course) (k : Krypto), C.Lawful ∧
    MakesKeys C E unicode15 V (exNewWith { keepers := [lit "OP"], valid := some 30 }) (exStoreDisk C) r k 1 [1] exPFK := by
  obtain ⟨C, E, V, r, k, hC, h, -⟩ := exMakesKeys { keepers := [lit "OP"], valid := some 30 }
  exact ⟨C, E, V, r, k, hC, h⟩

end K431
