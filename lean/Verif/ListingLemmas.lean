import Verif.Summary
import Verif.Filter
import Verif.SpecSecrecy

/-! # Helper lemmas: the list of keys does not look at their letters -/

namespace K431
open Spec

/-- the key without its letters -/
def blankKey (k : Key) : Key := { k with runes := [] }

theorem keySizesLoop_blank (ks : List Key) (s : Int × Int) : keySizesLoop (ks.map blankKey) s = keySizesLoop ks s := by
  induction ks generalizing s with
  | nil => rfl
  | cons k ks ih =>
    obtain ⟨a, b⟩ := s
    simp only [List.map_cons, keySizesLoop]
    exact ih _

theorem keySizes_blank (g : Nat) (ks : List Key) : keySizes g (ks.map blankKey) = keySizes g ks := by
  unfold keySizes
  rw [List.length_map, keySizesLoop_blank]

theorem summaryOfKeys_blank (date : Int → Runes) (f : Key → Bool) (hf : ∀ k, f (blankKey k) = f k) (inst : Inst) :
    summaryOfKeys date f { inst with keys := inst.keys.map blankKey } = summaryOfKeys date f inst := by
  have e : (inst.keys.map blankKey).filter f = (inst.keys.filter f).map blankKey := by
    rw [List.filter_map]
    congr 1
    exact List.filter_congr (fun k _ => hf k)
  unfold summaryOfKeys
  simp only [e, keySizes_blank, List.map_map]
  rfl

theorem withPads_blank (keys : List Key) (pads : List Runes) (h : pads.length = keys.length) : (withPads keys pads).map blankKey = keys.map blankKey := by
  induction keys generalizing pads with
  | nil => cases pads <;> simp_all [withPads]
  | cons k ks ih =>
    cases pads with
    | nil => simp at h
    | cons p ps =>
      have := ih ps (by simpa using h)
      simp only [withPads, List.zipWith_cons_cons, List.map_cons] at this ⊢
      rw [this]
      rfl

end K431
