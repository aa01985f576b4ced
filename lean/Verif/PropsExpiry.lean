import Verif.RelabelLemmas
import Verif.PropsCipher

/-!
# C103: expired keys
-/

namespace K431
open Spec

/-- **C103**, full statement: no successful `Encipher` uses a key that has expired. -/
def C103_Statement : Prop :=
  ∀ (U : Unicode), U.Lawful → ∀ (noise : Nat → Rune) (f : Runes) (now : Int) (inst inst' : Inst) (m m' : Msg) (chunks : List Chunk),
    WellFormed inst.keys → encipherT U noise f inst m = (.ok chunks, inst', m') →
    ∀ j ∈ keysOf chunks, ∀ k, inst.keys[j]? = some k → ¬ Expired now k

/-- a store with a single key, which expired at time 5 -/
def exExpired : Inst := exInst [{ exKey 1 "A" "QWERTYUIOP" with expires := 5 }]

/-- The statement is false: `FindKey` does not look at the date. -/
theorem C103_violated : ¬ C103_Statement := by
  intro h
  exact h unicode15 unicode15_lawful (fun _ => 0) [] 6 exExpired _ (exMsg "HEJ") _ _ (by decide)
    (show encipherT unicode15 (fun _ => 0) [] exExpired (exMsg "HEJ") = (.ok _, _, _) from rfl)
    0 (by decide) { exKey 1 "A" "QWERTYUIOP" with expires := 5 } rfl (by decide)

/-- **C103**, what holds: if every expired key of the store is also marked used, no expired key is used for a message that comes without
a key id.  Missing: expired keys that are not marked used are selected. -/
theorem C103_partial (U : Unicode) (hU : U.Lawful) (noise : Nat → Rune) (f : Runes) (now : Int) (inst inst' : Inst) (m m' : Msg) (chunks : List Chunk)
    (hwf : WellFormed inst.keys) (h : encipherT U noise f inst m = (.ok chunks, inst', m')) (hauto : m.keyId.val = [])
    (hexp : ∀ k ∈ inst.keys, Expired now k → k.used = true) :
    ∀ j ∈ keysOf chunks, ∀ k, inst.keys[j]? = some k → ¬ Expired now k := by
  obtain ⟨inst1, m1, i, s, out, e⟩ := encipherT_ok h
  intro j hj k hk hx
  obtain ⟨k', hk', hel⟩ := (e.auto_flags hU hauto (hwf.distinguishable hU)).2.2 j hj
  rw [hk] at hk'
  cases hk'
  have := hexp k (List.mem_of_getElem? hk) hx
  rw [hel.1] at this
  cases this

/-- non-vacuity: a store with an expired, used key and a good one -/
example : (encipherT unicode15 (fun _ => 0) []
    (exInst [{ exKey 1 "A" "QWERTYUIOP" with expires := 5, used := true }, { exKey 2 "B" "ASDFGHJKLZ" with expires := 9 }])
    (exMsg "HEJ")).1.val?.map keysOf = some [1] := by decide

/-- **C103**, how little the dates matter: whatever the dates and comments of the keys are changed to, `Encipher`, `Decipher` and
`TryDecipherPlainText` do the same: same result, same message, same keys chosen and marked. -/
theorem C103_blind (U : Unicode) (noise : Nat → Rune) (f : Runes) (dry : Bool) (expires created : Int → Int) (comment : Runes → Runes) (inst : Inst) (m : Msg) :
    encipherT U noise f (redateAll expires created comment inst) m =
      ((encipherT U noise f inst m).1, redateAll expires created comment (encipherT U noise f inst m).2.1, (encipherT U noise f inst m).2.2) ∧
    decipher U f (redateAll expires created comment inst) m =
      ((decipher U f inst m).1, redateAll expires created comment (decipher U f inst m).2.1, (decipher U f inst m).2.2) ∧
    tryDecipher U f dry (redateAll expires created comment inst) m =
      ((tryDecipher U f dry inst m).1, redateAll expires created comment (tryDecipher U f dry inst m).2.1, (tryDecipher U f dry inst m).2.2) :=
  ⟨encipherT_inert (redate_inert expires created comment) U noise f inst m, decipher_inert (redate_inert expires created comment) U f inst m,
    tryDecipher_inert (redate_inert expires created comment) U f dry inst m⟩

/-- non-vacuity: a change of the dates that makes a good key an expired one -/
example : ¬ Expired 6 { exKey 1 "A" "QWERTYUIOP" with expires := 7 } ∧ Expired 6 (redate (fun _ => 5) id id { exKey 1 "A" "QWERTYUIOP" with expires := 7 }) ∧
    (encipherT unicode15 (fun _ => 0) [] (redateAll (fun _ => 5) id id (exInst [{ exKey 1 "A" "QWERTYUIOP" with expires := 7 }])) (exMsg "HEJ")).1.isOk = true := by
  refine ⟨by decide, by decide, by decide⟩

end K431
