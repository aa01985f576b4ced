import Verif.Filter
import Verif.Print
import Verif.Summary
import Verif.SpecStore

/-!
# Specification vocabulary: what the user of the command-line program and the printouts expects
-/

namespace K431
open Spec

/-- The key is what the options ask for, according to the help texts (cmd/krypto431/krypto431.go:280-343): all keys, or those that meet every
criterion given. -/
def KeyOpts.Asks (U : Unicode) (now : Int) (o : KeyOpts) (k : Key) : Prop :=
  o.all = true ∨
  ((vettedKeepers U o.ids ≠ [] → InFold U k.id.val (vettedKeepers U o.ids)) ∧
   (vettedKeepers U o.keepers ≠ [] →
     if o.or then ∃ n ∈ vettedKeepers U o.keepers, n ∈ k.names else ∀ n ∈ vettedKeepers U o.keepers, n ∈ k.names) ∧
   (o.invalid = true → k.compromised = true ∨ k.expires < now) ∧
   (o.compromised = true → k.compromised = true) ∧
   (o.used = true → k.used = true) ∧
   (o.unused = true → k.used = false) ∧
   (o.expired = true → k.expires < now) ∧
   (∀ n, o.valid = some n → k.compromised = false ∧ now + n * (24 * 3600 * 1000000000) < k.expires))

instance (U : Unicode) (now : Int) (o : KeyOpts) (k : Key) : Decidable (o.Asks U now k) := by
  unfold KeyOpts.Asks
  have : Decidable (∀ n, o.valid = some n → k.compromised = false ∧ now + n * (24 * 3600 * 1000000000) < k.expires) := by
    cases o.valid with
    | none => exact isTrue (by intro n h; cases h)
    | some n =>
      exact decidable_of_iff (k.compromised = false ∧ now + n * (24 * 3600 * 1000000000) < k.expires)
        ⟨fun h m e => by cases e; exact h, fun h => h n rfl⟩
  have : Decidable (if o.or then ∃ n ∈ vettedKeepers U o.keepers, n ∈ k.names else ∀ n ∈ vettedKeepers U o.keepers, n ∈ k.names) := by
    split <;> infer_instance
  infer_instance

/-- no criterion other than ids is given -/
def KeyOpts.onlyIds (o : KeyOpts) : Prop :=
  o.keepers = [] ∧ o.invalid = false ∧ o.compromised = false ∧ o.used = false ∧ o.unused = false ∧ o.expired = false ∧ o.valid = none

/-- days that do not overflow `time.Duration`: about 292 years -/
def KeyOpts.daysFit (o : KeyOpts) : Prop := ∀ n, o.valid = some n → -106751 ≤ n ∧ n ≤ 106751

/-- The message is what the options ask for: all messages, or those listed by id, or those that meet the criteria. -/
def MsgOpts.Asks (U : Unicode) (o : MsgOpts) (m : Msg) : Prop :=
  o.all = true ∨
  (if vettedMessageIds U o.ids ≠ [] then m.id ∈ vettedMessageIds U o.ids
   else
     (vettedKeepers U o.to ≠ [] →
       if o.or then ∃ n ∈ vettedKeepers U o.to, n ∈ m.recipients else ∀ n ∈ vettedKeepers U o.to, n ∈ m.recipients) ∧
     (vettedKeepers U o.from_ ≠ [] → m.from_ ∈ vettedKeepers U o.from_))

/-- what a reader finds below column `i` (0 = A) in a line of the legend -/
def below (line : Runes) (i : Nat) : Option Int := line[4 + 2 * i]?

/-- the mark explained at the end of a line, its explanation, and the letter in parentheses: "> Switch table (Z)" -/
def explained (line : Runes) (mark : Int) (what : List Int) (letter : Int) : Prop :=
  line.drop 59 = [mark] ++ lit " " ++ what ++ lit " (" ++ [letter] ++ lit ")"

instance (line : Runes) (mark : Int) (what : List Int) (letter : Int) : Decidable (explained line mark what letter) := by
  unfold explained; infer_instance

/-- what is printed below column `i` of coding table `t + 1` -/
def legendChar (t i : Nat) : Option Int := (keyFooter[2 + t]?).bind (fun l => below l i)

/-- the mark `>` -/
def markSwitch : Int := 62
/-- the mark `¤` -/
def markBinary : Int := 164
/-- the mark `↕` -/
def markCase : Int := 8597
/-- the mark `→` -/
def markKey : Int := 8594

/-- the small letter that belongs to a character of the legend -/
def smallOf (c : Int) : Int := if c ∈ capitals then c + 32 else c

/-- the rows an item takes, added up over a page -/
def rowsOf {α : Type} (lines : α → Nat) (page : List α) : Nat := (page.map lines).sum

/-- An id that survives being printed: not empty, Unicode code points only, no comma, no white space. -/
def Printable (U : Unicode) (id : Runes) : Prop :=
  id ≠ [] ∧ ∀ c ∈ id, validRune c = true ∧ c ≠ 44 ∧ U.isSpace c = false

instance (U : Unicode) (id : Runes) : Decidable (Printable U id) := by unfold Printable; infer_instance

/-- The item `x` is shown on a line which is among the strings `response` (what the user ticked). -/
def Chosen {α : Type} (shown : List α) (lines response : List Runes) (x : α) : Prop :=
  ∃ p ∈ shown.zip lines, p.1 = x ∧ goStr p.2 ∈ response

instance {α : Type} [DecidableEq α] (shown : List α) (lines response : List Runes) (x : α) : Decidable (Chosen shown lines response x) := by
  unfold Chosen; infer_instance

end K431
