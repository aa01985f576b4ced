import Verif.Store

/-!
# Specification vocabulary: dates and comments of keys
-/

namespace K431.Spec

/-- A key with other dates and another comment. -/
def redate (expires created : Int → Int) (comment : Runes → Runes) (k : Key) : Key :=
  { k with expires := expires k.expires, created := created k.created, comment := comment k.comment }

/-- A store whose keys have other dates and comments. -/
def redateAll (expires created : Int → Int) (comment : Runes → Runes) (inst : Inst) : Inst :=
  { inst with keys := inst.keys.map (redate expires created comment) }

/-- The key has expired at the time `now`. -/
def Expired (now : Int) (k : Key) : Prop := k.expires < now

instance (now : Int) (k : Key) : Decidable (Expired now k) := inferInstanceAs (Decidable (k.expires < now))

end K431.Spec
