import Verif.PfkCmdLemmas
import Verif.PersistEx

/-!
# Examples for the commands
-/

namespace K431
open Spec

/-- the file `[1]` with three keys A, B and C, encrypted with `exPFK` -/
def exStore : Inst := ⟨5, 350, 110, 30, [exKey 1 "A" "Q", exKey 2 "B" "W", exKey 3 "C" "E"], [], lit "SA", 4⟩
@[inherit_doc exStore]
def exStoreDisk (C : Codec) : Disk := exDisk.set [1] (C.enc exPFK 0 (gobInst exStore))

/-- `--pfk` with this key -/
def exAccess : Access := { pfk := some (hexEncode exPFK) }

/-- nothing fails, nobody answers -/
def exKeysEnv : KeysEnv :=
  ⟨exWorld, exWorld, exWorld, exWorld, exWorld, exWorld, exWorld, 0, fun _ => 0, fun _ => [], fun _ => none, [], fun _ => noNoise, fun _ _ => noNoise,
    fun _ => none, fun _ _ => none⟩

theorem prepared_example (E : PwEnv) : prepared E exAccess [1] =
    (.ok (), { newBase with persistence := [1], interactive := true, pfk := some exPFK }) := by
  have h1 : hexDecode (hexEncode exPFK) = some exPFK := by decide
  have h2 : exPFK.length = 32 := by decide
  unfold prepared setSaltAndPFK exAccess setPFKFromString
  simp only [Option.isSome_none, Bool.and_false, Bool.false_eq_true, if_false, h1, h2, ne_eq, not_true]
  rfl

/-- opening the example file -/
theorem load_exStore {C : Codec} (hC : C.Lawful) (E : PwEnv) (i : Inst) (n : Nat) (h0 : i.groupSize ≠ 0) (h1 : i.keyLength ≠ 0) (h2 : i.columns ≠ 0)
    (h3 : i.keyColumns ≠ 0) :
    ∃ k, load C E exWorld (exDisk.set [1] (C.enc exPFK n (gobInst i))) (prepared E exAccess [1]).2 = some (.ok (), k) ∧ SameStore k.inst i ∧ k.pfk = some exPFK ∧
      k.persistence = [1] := by
  rw [prepared_example]
  dsimp only
  refine ⟨_, load_complete hC E rfl rfl (set_same _ _ _), ?_, rfl, rfl⟩
  exact (gobDecode_blank (k := { newBase with persistence := [1], interactive := true, pfk := some exPFK })
    ⟨newBase_blank.keys, newBase_blank.messages, newBase_blank.callSign, newBase_blank.spareKeys, newBase_blank.spareMsgs⟩ i h0 h1 h2 h3).1

/-- equal stores have equal ids -/
theorem sameStore_ids {x y : Inst} (h : SameStore x y) : x.keys.map (fun k => k.id.val) = y.keys.map (fun k => k.id.val) := by
  have := h.keys
  generalize x.keys = l at this
  generalize y.keys = m at this
  induction this with
  | nil => rfl
  | cons a _ ih => simp only [List.map_cons, ih, a.id]

/-- equal stores have equal message ids -/
theorem sameStore_msgIds {x y : Inst} (h : SameStore x y) : x.messages.map Msg.id = y.messages.map Msg.id := by
  have := h.messages
  generalize x.messages = l at this
  generalize y.messages = m at this
  induction this with
  | nil => rfl
  | cons a _ ih => simp only [List.map_cons, ih, a.id]

/-- the file `[1]` with two messages, encrypted with `exPFK` -/
def exMsgsStore : Inst := ⟨5, 350, 110, 30, [], [⟨lit "X1", [], [], 0, Sl.nil, lit "A", [], []⟩, ⟨lit "X2", [], [], 0, Sl.nil, lit "B", [], []⟩], lit "SA", 4⟩
@[inherit_doc exMsgsStore]
def exMsgsDisk (C : Codec) : Disk := exDisk.set [1] (C.enc exPFK 0 (gobInst exMsgsStore))

/-- nothing fails, nobody answers -/
def exMsgsEnv : MsgsEnv :=
  ⟨exWorld, exWorld, exWorld, exWorld, ⟨fun _ => [], fun _ => .err .other, 0⟩, none, fun _ => [], fun _ => [], fun _ => [], [], fun _ => none, [], fun _ _ => 0,
    fun _ _ _ => 0, fun _ => 0, fun _ _ => none⟩

/-- 32 random bytes -/
def exBytes : List Nat := List.replicate 32 9

/-- nothing fails, nobody answers -/
def exPfkEnv : PfkEnv := ⟨exWorld, exWorld, none, some exBytes, [], none⟩

/-- `pfk --change … --random --new-pfk … --yes` -/
def exTwoKeys : PfkCmd := { access := exAccess, change := some [1], random := true, newPFK := some (hexEncode exPFK), yes := true }

theorem preparedOld_example (E : PwEnv) : preparedOld E exAccess none [1] =
    (.ok (), { newBase with persistence := [1], interactive := true, pfk := some exPFK }) := by
  unfold preparedOld; rw [prepared_example]

/-- changing the key of the example file -/
theorem rekey_example {C : Codec} (hC : C.Lawful) (E : PwEnv) (o : PfkCmd) (ha : o.access = exAccess) (ho : o.old = none) (hc : o.change = some [1])
    (hg : o.genPFK = false) (hgs : o.genSalt = false) (hn : o.newSalt = none) (key : List Nat)
    (hk : ∀ {salt}, NewKey E exPfkEnv o salt key) (hlen : key.length = 32) (hag : Agreed exPfkEnv o) :
    ∃ k r, load C E exPfkEnv.loadW (exStoreDisk C) (preparedOld E o.access o.old [1]).2 = some (.ok (), k) ∧ pfkCommand C E exPfkEnv o (exStoreDisk C) = some r ∧
      (Reads exPfkEnv.saveW k [1] ∧ SameStore k.inst exStore) ∧ ¬ r.Untouched (exStoreDisk C) := by
  obtain ⟨k, hl, hs, hkey, hpath⟩ := load_exStore hC E exStore 0 (by decide) (by decide) (by decide) (by decide)
  rw [ha, ho]
  have he : (preparedOld E exAccess none [1]).2 = (prepared E exAccess [1]).2 := by rw [preparedOld_example, prepared_example]
  have hr : Reads exPfkEnv.saveW k [1] := ⟨by simp [hpath], by rw [hpath]; rfl, rfl, rfl⟩
  have hop := prepared_opened hl
  have hq := changeFileKey_runs (C := C) (s := ⟨exStoreDisk C, k, [], []⟩) (salt' := k.salt) (by rw [hn]; rfl) hk hlen hag
  obtain ⟨p, hq⟩ := hq
  obtain ⟨s', hd, ⟨cs, hcs, ht⟩, -, -, -, -⟩ := saveStep_done hC (E := E) (W := exPfkEnv.saveW)
    (s := ⟨exStoreDisk C, { k with salt := k.salt, pfk := some key }, [], p⟩) (path := [1]) (key := key) ⟨hr.named, hr.path, hr.stat, hr.opens⟩ rfl hlen hop.overwrite rfl
  refine ⟨k, .go s', by rw [he]; exact hl, ?_, ⟨hr, hs⟩, ?_⟩
  · unfold pfkCommand
    dsimp only
    rw [hg, hgs, hc, ha, ho]
    simp only [Bool.false_and, Bool.false_eq_true, if_false]
    rw [check_ok (by rw [preparedOld_example]), andThen_go]
    unfold loadStep
    dsimp only
    rw [he, show exPfkEnv.loadW = exWorld from rfl]
    unfold exStoreDisk at hq hd ⊢
    rw [hl, Option.map_some, check_ok rfl, andThen_go, hq.1]
    exact hd
  · rintro ⟨-, hu⟩
    have := hu ⟨[1], cs⟩ (by change _ ∈ s'.touched; rw [ht]; simp)
    exact hcs this

end K431
