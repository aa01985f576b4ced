import Verif.Cli
import Verif.SpecPfk

/-!
# Specification vocabulary: what is entered on the command line and at the prompts
-/

namespace K431.Spec

/-- The kind of file asked for with `--output`: what `--type` says; without it, text if the name of the file ends in `.txt` or `.TXT`, else PDF. -/
inductive KindAsked (type : Option (List Nat)) (file : List Nat) : OutKind → Prop
  | pdfType : type = some (ascii "pdf") ∨ type = some (ascii "PDF") → KindAsked type file .pdf
  | txtType : type = some (ascii "txt") ∨ type = some (ascii "text") ∨ type = some (ascii "TXT") → KindAsked type file .txt
  | txtName : type = none → (∃ p, file = p ++ ascii ".txt" ∨ file = p ++ ascii ".TXT") → KindAsked type file .txt
  | pdfName : type = none → (¬ ∃ p, file = p ++ ascii ".txt" ∨ file = p ++ ascii ".TXT") → KindAsked type file .pdf

/-- The text `s`, words separated by commas and blanks, lists the words `ws`. -/
inductive Lists : List Int → List (List Int) → Prop
  | nil : Lists [] []
  | skip {c : Int} {s : List Int} {ws : List (List Int)} : c = 44 ∨ c = 32 → Lists s ws → Lists (c :: s) ws
  | word {w s : List Int} {ws : List (List Int)} : w ≠ [] → (∀ c ∈ w, c ≠ 44 ∧ c ≠ 32) → (∀ c, s.head? = some c → c = 44 ∨ c = 32) → Lists s ws →
      Lists (w ++ s) (w :: ws)

/-- `s` is `b` written in hexadecimal digits -/
def InHex (s b : List Nat) : Prop := (∀ x ∈ b, x < 256) ∧ hexEncode b = lower s

/-- the salt `pfk --generate-pfk` works with: `--new-salt` (the word "default" is the default salt), else `--salt`, else the default salt -/
def SaltGiven (o : PfkCmd) (salt : List Nat) : Prop :=
  InHex (match o.newSalt with
    | some s => if s = ascii "default" then defaultSalt else s
    | none => o.access.salt.getD defaultSalt) salt

/-- the password `pfk --generate-pfk` works with: `--password`, or what was entered twice in a row at the prompt -/
def PasswordGiven (V : PfkEnv) (o : PfkCmd) (pw : List Nat) : Prop :=
  o.access.password = some pw ∨ o.access.password = none ∧ ∃ j : Nat, V.inputs[j]? = some (some pw) ∧ V.inputs[j + 1]? = some (some pw)

end K431.Spec
