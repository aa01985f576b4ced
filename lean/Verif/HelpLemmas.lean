import Verif.PropsStoreCmd
import Verif.PropsTalk

/-! # Helper lemmas: `keys --new` on the example file -/

namespace K431
open Spec

/-- `keys --new 1` with these filters on the example file -/
def exNewWith (f : KeyOpts) : KeysCmd := { access := exAccess, file := [1], newKeys := some 1, filter := f }

/-- the command runs, on a file that can be loaded and written -/
theorem exNewWith_runs (f : KeyOpts) : ∃ (C : Codec) (E : PwEnv) (V : KeysEnv) (r : Course) (k : Krypto), C.Lawful ∧ keysCommand C E unicode15 V (exNewWith f) (exStoreDisk C) = some r ∧
    (prepared E (exNewWith f).access (exNewWith f).file).1 = .ok () ∧ load C E V.loadW (exStoreDisk C) (prepared E (exNewWith f).access (exNewWith f).file).2 = some (.ok (), k) ∧
    k.inst.groupSize ≠ 0 ∧ Reads V.newW k [1] ∧ V.newW.room = none ∧ k.pfk = some exPFK ∧ k.inst.keyLength ≠ 0 ∧ k.inst.columns ≠ 0 ∧
    k.inst.keyColumns ≠ 0 ∧ V.now = 0 ∧ k.inst.callSign = lit "SA" := by
  obtain ⟨C, hC⟩ := exists_lawful
  let E : PwEnv := ⟨fun _ _ => [], fun _ => true⟩
  obtain ⟨k, hl, hs, hkey, hpath⟩ := load_exStore hC E exStore 0 (by decide) (by decide) (by decide) (by decide)
  have hids := sameStore_ids hs
  have hlen : k.inst.keys.length = 3 := by simpa [exStore] using congrArg List.length hids
  have hg : k.inst.groupSize = 5 := hs.groupSize
  obtain ⟨tape, ht⟩ := (C24_returns unicode15 unicode15_lawful 0 (0 + 365 * 24 * 3600 * 1000000000) f.keepers k.inst (by rw [hg]; decide)).1 (by rw [hg, hlen]; decide) []
  rw [List.nil_append] at ht
  let V : KeysEnv := { exKeysEnv with tape := tape }
  have hp : (prepared E (exNewWith f).access (exNewWith f).file).1 = .ok () := by
    rw [show (exNewWith f).access = exAccess from rfl, show (exNewWith f).file = [1] from rfl, prepared_example]
  have hrun : ∃ r, keysCommand C E unicode15 V (exNewWith f) (exStoreDisk C) = some r := by
    have hop : openStore C E V.loadW (exNewWith f).access (exNewWith f).file (exStoreDisk C) = some (.go ⟨exStoreDisk C, k, [], []⟩) := openStore_ok hp hl
    unfold keysCommand
    rw [if_neg (by simp [KeysCmd.any, exNewWith]), hop, andThen_skip (f := keysDelete C E unicode15 V (exNewWith f)) (fun s => rfl), andThen_go,
      andThen_skip (f := keysImport C E unicode15 V (exNewWith f)) (fun s => rfl), andThen_skip (f := keysExport C E unicode15 V (exNewWith f)) (fun s => rfl)]
    have hgen : ∃ i t', generateKeys unicode15 V.clock V.now 1 (exNewWith f).expire (exNewWith f).filter.keepers k.inst V.tape = some (.ok (), i, t') := by
      obtain ⟨⟨a, b, c⟩, hq⟩ := Option.ne_none_iff_exists'.1 ht
      refine ⟨b, c, ?_⟩
      show Option.map _ (generateLoop unicode15 (fun _ => 0) (0 + 365 * 24 * 3600 * 1000000000) f.keepers 1 k.inst tape) = _
      unfold generateLoop
      rw [hq]
      rfl
    obtain ⟨i, t', hgen⟩ := hgen
    have hn : keysNew C E unicode15 V (exNewWith f) ⟨exStoreDisk C, k, [], []⟩ = saveStep C E V.newW ⟨exStoreDisk C, { k with inst := i }, [], []⟩ := by
      unfold keysNew
      rw [show (exNewWith f).newKeys = some 1 from rfl]
      dsimp only
      rw [if_pos (by decide), hgen]
      rfl
    obtain ⟨c, hc⟩ := saveStep_total (C := C) (E := E) (W := V.newW) (s := ⟨exStoreDisk C, { k with inst := i }, [], []⟩) (key := exPFK) hkey (prepared_opened hl).overwrite
    rw [hn, hc]
    cases c with
    | stop oc s => exact ⟨_, rfl⟩
    | go s =>
      rw [andThen_go]
      exact ⟨_, rfl⟩
  obtain ⟨r, hr⟩ := hrun
  exact ⟨C, E, V, r, k, hC, hr, hp, hl, by rw [hg]; decide, ⟨by rw [hpath]; simp, by rw [hpath]; rfl, rfl, rfl⟩, rfl, hkey, by rw [hs.keyLength]; decide,
    by rw [hs.columns]; decide, by rw [hs.keyColumns]; decide, rfl, hs.callSign⟩

end K431
