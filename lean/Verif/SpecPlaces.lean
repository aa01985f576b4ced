import Verif.Places

/-!
# What the properties about places say of a program
-/

namespace K431.Place

open K431.Mem

/-- The steps never call `SetInstance`, by which a program may say otherwise. -/
def Unassigned (ss : List Step) : Prop := ∀ s ∈ ss, (∀ a q, s ≠ .setInstance a q) ∧ ∀ a q, s ≠ .setMsgInstance a q

/-- The ids of the keys are different. -/
def Distinct (w : World) (p : Nat) : Prop := ((w.keysOf p).map (fun c => goStr c.val.id)).Nodup

/-- Steps other than loading or wiping a store and assigning to fields of keys. -/
def Step.Plain : Step → Prop
  | .load _ _ _ _ | .wipe _ | .writeKey _ _ => False
  | _ => True

/-- What keeps a pointer `a` to a key of the station at `p` good: keys are added only while the array has room; of the keys deleted none is the one
pointed to, and it is not the last one, which takes the place of the deleted one; the station is not loaded again nor wiped; the id is not
overwritten. -/
def Step.Spares (U : Unicode) (w : World) (p a : Nat) : Step → Prop
  | .newKey q _ _ => q = p → (w.stations p).keys.len < (w.stations p).keys.cap
  | .addKey q _ _ => q = p → (w.stations p).keys.len < (w.stations p).keys.cap
  | .deleteKey q id _ => q = p → ∀ i, i < (w.stations p).keys.len →
      firstIdx (fun c : Cell KeyVal => equalRunesFold U (some c.val.id) (some id)) 0 (w.keysOf p) = some i →
        a ≠ (w.stations p).keys.base + i ∧ a + 1 ≠ (w.stations p).keys.base + (w.stations p).keys.len
  | .load q _ _ _ => q ≠ p
  | .wipe q => q ≠ p
  | .writeKey b f => b = a → ∀ v, (f v).id = v.id
  | _ => True

/-- every step of the run spares the pointer -/
def Spared (U : Unicode) (p a : Nat) : World → List Step → Prop
  | _, [] => True
  | w, s :: ss => s.Spares U w p a ∧ Spared U p a (w.step U s) ss

end K431.Place
