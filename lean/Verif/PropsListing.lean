import Verif.ListingLemmas
import Verif.Traffic
import Verif.PropsCipher

/-! # C99: lists of keys show no key letters, and traffic shows nothing of a text but its ciphertext -/

namespace K431
open Spec

/-- **C99**: whatever the options, the list of keys (`keys --list`, and the choices of `keys --delete`) is the same whatever the letters of the keys are. -/
theorem C99_keys (U : Unicode) (now : Int) (o : KeyOpts) (date : Int → Runes) (inst : Inst) (pads pads' : List Runes) (h : pads.length = inst.keys.length) (h' : pads'.length = inst.keys.length) :
    summaryOfKeys date (keyFilter U now o) { inst with keys := withPads inst.keys pads } = summaryOfKeys date (keyFilter U now o) { inst with keys := withPads inst.keys pads' } := by
  have e : ∀ pads : List Runes, pads.length = inst.keys.length →
      summaryOfKeys date (keyFilter U now o) { inst with keys := withPads inst.keys pads } = summaryOfKeys date (keyFilter U now o) { inst with keys := inst.keys.map blankKey } := by
    intro pads h
    rw [← withPads_blank _ _ h]
    exact (summaryOfKeys_blank date (keyFilter U now o) (fun _ => rfl) { inst with keys := withPads inst.keys pads }).symm
  rw [e pads h, e pads' h']

/-- non-vacuity: a list of two keys, whatever their letters -/
example : (summaryOfKeys (fun _ => lit "DATE") (keyFilter unicode15 0 { all := true }) { ex2 with keys := withPads ex2.keys [lit "SECRET", lit "LETTERS"] }).2.length = 2 := by decide

/-- **C99**: the line to be transmitted is the same for any two messages with the same recipients, sender, time, key id and ciphertext; text, radiogram and id of the message do not go on the air. -/
theorem C99_traffic (U : Unicode) (P : PrintEnv) (g : Nat) (m m' : Msg) (h1 : m'.recipients = m.recipients) (h2 : m'.from_ = m.from_) (h3 : m'.dtg = m.dtg) (h4 : m'.keyId.val = m.keyId.val)
    (h5 : m'.cipherText = m.cipherText) : trafficLine U P g m' = trafficLine U P g m := by
  simp only [trafficLine, keyAndGroups, h1, h2, h3, h4, h5]

/-- non-vacuity: the traffic of two messages with different texts -/
example : let P : PrintEnv := ⟨[13, 10], fun _ => [], id, id, fun _ => lit "012345Z"⟩
    let m : Msg := { exMsg "ATTACK" with from_ := lit "AA", recipients := [lit "BB"], keyId := ⟨1, lit "K"⟩, cipherText := lit "QX" }
    trafficLine unicode15 P 1 m = lit "BB DE AA 012345Z 3 = K Q X = K" ∧ trafficLine unicode15 P 1 { m with plainText := lit "RETREAT" } = trafficLine unicode15 P 1 m := by decide

end K431
