import Verif.Cipher
import Verif.SpecStore

/-!
# Words for what enciphering and deciphering do
-/

namespace K431
open Spec

/-- what one character becomes after coding and decoding -/
def canon (c : Rune) : Rune :=
  if c = dotlessI then 105 else if c = longS then 115 else c

/-- The two runes outside the legend that the coder accepts come out as the letters they look
like (see C09). -/
def recovered (text : Runes) : Runes :=
  text.map (fun c => if c = dotlessI then 105 else if c = longS then 115 else c)

/-- groups of a line with blanks between, lines with line breaks between -/
def joinWith (sep : Runes) : List Runes → Runes
  | [] => []
  | [g] => g
  | g :: gs => g ++ sep ++ joinWith sep gs

/-- every group has `gs` runes, the last at least one and at most `gs` -/
def Whole (gs : Int) (l : List Runes) : Prop :=
  ∀ (n : Nat) (g : Runes), l[n]? = some g → g ≠ [] ∧ (g.length : Int) ≤ gs ∧ (n + 1 < l.length → (g.length : Int) = gs)

/-- indices of the keys in use -/
def keysOf (chs : List Chunk) : List Nat := chs.map Chunk.key

/-- key and position of the key letter for every ciphertext letter, in order -/
def lettersUsed (chunks : List Chunk) : List (Nat × Nat) :=
  chunks.flatMap (fun ch => (List.range ch.enc.length).map (fun p => (ch.key, p)))

/-- Inside a message, each key but the first is announced by the last group of the text before it. -/
def Announced (g : Nat) (keys : List Key) (chunks : List Chunk) : Prop :=
  ∀ (n : Nat) (a b : Chunk), chunks[n]? = some a → chunks[n + 1]? = some b →
    ∃ pre k, a.enc = pre ++ k.id.val ∧ k.id.val.length = g ∧ keys[b.key]? = some k

/-- the same keys, with more marks -/
def Marked (a b : List Key) : Prop := b.length = a.length ∧ ∀ (j : Nat) (k : Key), a[j]? = some k → ∃ x, b[j]? = some { k with used := k.used || x }

/-- The receiver `rkeys` resolves the id of the sender's key number `i` to a key with the same
letters. -/
def Resolves (U : Unicode) (keys rkeys : List Key) (i : Nat) : Prop :=
  ∃ k j kr, keys[i]? = some k ∧ getKey U rkeys k.id.val = some j ∧ rkeys[j]? = some kr ∧ kr.runes = k.runes

/-- receiver's key index of sender's key `i` -/
def ResolvesTo (U : Unicode) (keys rkeys : List Key) (i j : Nat) : Prop :=
  ∃ k kr, keys[i]? = some k ∧ getKey U rkeys k.id.val = some j ∧ rkeys[j]? = some kr ∧ kr.runes = k.runes

end K431
