import Verif.SpecCmd
import Verif.SpecRuns
import Verif.SpecTraffic
import Verif.Traffic

/-!
# Two stations that hand over keys and send messages to each other

Each has its own computer with a file of keys.  Everything is done with runs of the program.
-/

namespace K431
open Spec

/-- A station: its file of keys, the key that opens this file, and the call-sign. -/
structure Side where
  path : List Nat
  key : List Nat
  call : Runes

/-- The options of a command give access to the station's file, which the system lets the program read, and the key that opens it. -/
structure Opens (E : PwEnv) (W : World) (a : Access) (file : List Nat) (s : Side) : Prop where
  access : (prepared E a file).1 = .ok ()
  reads : Reads W (prepared E a file).2 s.path
  key : LoadsWith E W (prepared E a file).2 s.key

/-- The system lets the program write all of the file. -/
structure Writes (W : World) (path : List Nat) : Prop where
  named : path ≠ []
  path : resolvePath W path = some path
  stat : W.statFails = false
  opens : W.openFails = false
  room : W.room = none

/-- A run of `messages --new`, with `--list` and `--output` to another file or not, on the station's file; `entered` is entered. -/
structure Enters (C : Codec) (E : PwEnv) (U : Unicode) (s : Side) (V : MsgsEnv) (o : MsgsCmd) (disk : Disk) (entered : Runes) (r : Course) : Prop where
  run : messagesCommand C E U V o disk = some r
  new : o.new = true
  keep : o.delete = false
  access : Opens E V.loadW o.access o.file s
  writes : Writes V.newW s.path
  output : o.output ≠ some s.path
  entered : V.radiogram = some entered

/-- A radiogram in the short form, from the one call-sign to the other, with this text. -/
def Radiogram (U : Unicode) (caller called text radiogram : Runes) : Prop :=
  ∃ names sender dtg instr count rest, ShortForm radiogram names sender dtg instr count rest ∧ Ended U.isSpace rest text ∧
    (∀ w ∈ dtg, ∃ day zone month year, DtgWord w day zone month year ∧ (zone ≠ [] ∨ month = [])) ∧
    names.map (fun n => n.map U.toUpper) = [called] ∧ SameFold U (sender.map U.toUpper) caller

/-- A message goes from `s` to `t`: at `s` a radiogram with characters of the coding legend is entered; the program prints a message of at most 9998 groups, on a printer that keeps words whole; at `t` the
printed traffic is entered.  Before and after: the files of both computers; beside: the text, and the ids of the pads that the message is enciphered with. -/
inductive Sends (C : Codec) (U : Unicode) (groupSize : Nat) (s t : Side) : Disk → Disk → Runes → List Runes → Disk → Disk → Prop
  | mk {E E' : PwEnv} {V V' : MsgsEnv} {o o' : MsgsCmd} {disk disk' : Disk} {r r' : Course} {entered entered' text : Runes} {m : Msg} {P : PrintEnv} {time : Int} :
      Enters C E U s V o disk entered r → Radiogram U s.call t.call text (V.radio.unbreak entered) → (∀ c ∈ text, c ∈ alphabet) →
      r.sent = [m] → m.cipherText.length ≤ 9998 * groupSize →
      PrintedTime (P.date m.dtg) → (∀ ws l, InWords (· = 32) ws l → InWords Spec.Blank ws (P.wrap l)) →
      Enters C E' U t V' o' disk' entered' r' → SameWords (trafficLine U P groupSize m) (V'.radio.unbreak entered') → V'.radio.dtgParse (P.date m.dtg) = .ok time →
      Sends C U groupSize s t disk disk' text (printedPads C E U V o disk) r.state.disk r'.state.disk

/-- A run of `keys --new`, with any keepers, on the station's file. -/
inductive Makes (C : Codec) (U : Unicode) (s : Side) : Disk → Disk → Prop
  | mk {E : PwEnv} {V : KeysEnv} {o : KeysCmd} {disk : Disk} {r : Course} {n : Int} : keysCommand C E U V o disk = some r →
      o.delete = false → o.newKeys = some n → 0 < n → o.importFile = none → o.exportFile = none → (∀ x, o.expire = some x → ∃ e, x = .ok e) →
      Opens E V.loadW o.access o.file s → Writes V.newW s.path → o.output ≠ some s.path → Makes C U s disk r.state.disk

/-- The keys certainly suffice for the text: it has only capital letters other than Q and Z and spaces, and the keys have together one letter of capacity for each; or it has characters of the coding
legend, and each key that may be chosen for the recipients, of which there is one, has four letters of capacity for each character. -/
def EnoughKeys (groupSize : Nat) (recipients : List Runes) (keys : List Key) (text : Runes) : Prop :=
  ((∀ c ∈ text, c ∈ firstTable) ∧ (∀ k ∈ keys, Selectable groupSize recipients k → groupSize + 3 ≤ k.runes.length) ∧ text.length ≤ available groupSize recipients keys) ∨
  ((∀ c ∈ text, c ∈ alphabet) ∧ (∃ k ∈ keys, Selectable groupSize recipients k) ∧
    ∀ k ∈ keys, Selectable groupSize recipients k → 4 * text.length ≤ capacity groupSize k)

/-- Keys with the same id in the files of the two stations are copies of the same pad. -/
def Agree (C : Codec) (s t : Side) (disk disk' : Disk) : Prop :=
  ∀ i j, Stored C disk s.path s.key i → Stored C disk' t.path t.key j → ∀ x ∈ i.keys, ∀ y ∈ j.keys, x.id.val = y.id.val → x.runes = y.runes

/-- Keys are handed over: `s` runs `keys --export` with a filter that selects all keys it may use for messages to `t`; the file gets to the computer of `t`, which runs `keys --import` without a
filter, enters what opens the file, and answers all questions. -/
inductive HandsOver (C : Codec) (U : Unicode) (groupSize : Nat) (s t : Side) : Disk → Disk → Disk → Disk → Prop
  | mk {E E' : PwEnv} {V V' : KeysEnv} {o o' : KeysCmd} {disk disk' copied : Disk} {r r' : Course} {f f' path path' : List Nat} :
      keysCommand C E U V o disk = some r → o.delete = false → o.newKeys = none → o.importFile = none → o.exportFile = some f →
      (∀ x, Selectable groupSize [t.call] x → keyFilter U V.now o.filter x = true) →
      Opens E V.loadW o.access o.file s → MayExport V o disk f path → path ≠ s.path → o.output ≠ some path → o.output ≠ some s.path →
      copied path' = r.state.disk path → copied t.path = disk' t.path →
      keysCommand C E' U V' o' copied = some r' → o'.delete = false → o'.newKeys = none → o'.importFile = some f' → o'.exportFile = none →
      (∀ x, keyFilter U V'.now o'.filter x = true) → (∀ x, V'.answer x ≠ none) →
      Opens E' V'.loadW o'.access o'.file t → Reads V'.readW (incomingFor f') path' → LoadsWith E' V'.readW (incomingFor f') s.key →
      Writes V'.importW t.path → o'.output ≠ some t.path → Agree C s t disk disk' →
      HandsOver C U groupSize s t disk disk' r.state.disk r'.state.disk

/-- `s` makes new keys or not, and then hands over its keys to `t`. -/
def Supplies (C : Codec) (U : Unicode) (groupSize : Nat) (s t : Side) (disk disk' disk2 disk2' : Disk) : Prop :=
  ∃ disk1, (disk1 = disk ∨ Makes C U s disk disk1) ∧ HandsOver C U groupSize s t disk1 disk' disk2 disk2'

/-- What the stations `a` and `b` may do, any number of times: one of them makes keys and hands over its keys to the other; a message goes from one to the other; anything is done that leaves the two
files alone.  Beside: the texts and the ids of the pads used, in order. -/
inductive Talk (C : Codec) (U : Unicode) (groupSize : Nat) (a b : Side) (start start' : Disk) : List Runes → List Runes → Disk → Disk → Prop
  | start : Talk C U groupSize a b start start' [] [] start start'
  | there {texts pads text used d d' e e'} : Talk C U groupSize a b start start' texts pads d d' → Sends C U groupSize a b d d' text used e e' →
      Talk C U groupSize a b start start' (texts ++ [text]) (pads ++ used) e e'
  | back {texts pads text used d d' e e'} : Talk C U groupSize a b start start' texts pads d d' → Sends C U groupSize b a d' d text used e' e →
      Talk C U groupSize a b start start' (texts ++ [text]) (pads ++ used) e e'
  | supply {texts pads d d' e e'} : Talk C U groupSize a b start start' texts pads d d' → Supplies C U groupSize a b d d' e e' →
      Talk C U groupSize a b start start' texts pads e e'
  | supplyBack {texts pads d d' e e'} : Talk C U groupSize a b start start' texts pads d d' → Supplies C U groupSize b a d' d e' e →
      Talk C U groupSize a b start start' texts pads e e'
  | other {texts pads d d' e e'} : Talk C U groupSize a b start start' texts pads d d' → e a.path = d a.path → e' b.path = d' b.path →
      Talk C U groupSize a b start start' texts pads e e'

/-- What is required of the store of a station. -/
structure SideOk (groupSize : Nat) (s : Side) (i : Inst) : Prop where
  size : i.groupSize = groupSize
  call : i.callSign = s.call
  key : s.key.length = 32
  settings : i.groupSize ≠ 0 ∧ i.keyLength ≠ 0 ∧ i.columns ≠ 0 ∧ i.keyColumns ≠ 0
  keys : WellFormed i.keys
  ids : ∀ x ∈ i.keys, x.id.val.length = groupSize

/-- The file of `a` holds the store `i` and that of `b` the store `j`; each station has all pads that the other may choose for messages to it. -/
structure Linked (C : Codec) (U : Unicode) (groupSize : Nat) (a b : Side) (disk disk' : Disk) (i j : Inst) : Prop where
  stored : Stored C disk a.path a.key i
  stored' : Stored C disk' b.path b.key j
  ok : SideOk groupSize a i
  ok' : SideOk groupSize b j
  calls : ¬ SameFold U a.call b.call
  pads : ∀ x ∈ i.keys, Selectable groupSize [b.call] x → Holds j.keys x.id.val x.runes
  pads' : ∀ x ∈ j.keys, Selectable groupSize [a.call] x → Holds i.keys x.id.val x.runes

end K431
