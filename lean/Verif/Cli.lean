import Verif.Persist
import Verif.Filter
import Verif.Summary
import Verif.Radiogram

/-!
# The commands of the program: `keys`, `messages`, `pfk`, `initialize` (cmd/krypto431)

A command is a sequence of sections; each may end the command (`return`) or go on.  Options are given as parsed by the package `cli`:
`none` or `false` if not set.  Every use of the file system has its own `World`.  Of what is printed, keys, salts, messages and listings are modelled; other texts are left out.
The deferred `k.Wipe()` touches no file and is left out.  No other process changes the files meanwhile.
-/

namespace K431

/-- The global options `--salt`, `--pfk`, `--password` (cmd/krypto431/krypto431.go:70-88), `none` unless set. -/
structure Access where
  salt : Option (List Nat) := none
  pfk : Option (List Nat) := none
  password : Option (List Nat) := none

/-- A file written: its path and what it contains one after the other, from its truncation on (nothing if it was not touched). -/
structure Touch where
  path : List Nat
  contents : List (List Nat)

/-- What is written to standard output and matters. -/
inductive Printed where
  | text (s : List Nat)
  | message (m : Msg)
  | listing (file : List Nat) (callSign : Runes) (keys messages : Nat) (lines : List Runes)

/-- The state of a command: file system, instance, the files written so far, what has been printed. -/
structure Cmd where
  disk : Disk
  k : Krypto
  touched : List Touch
  printed : List Printed

/-- what a section does: go on, or return from the command -/
inductive Course where
  | go (s : Cmd)
  | stop (o : Outcome Unit) (s : Cmd)

/-- the state in either case -/
def Course.state : Course → Cmd
  | .go s => s
  | .stop _ s => s

/-- the result of the command if this was the last section -/
def Course.outcome : Course → Outcome Unit
  | .go _ => .ok ()
  | .stop o _ => o

/-- the messages among what has been printed -/
def Course.sent (r : Course) : List Msg := r.state.printed.filterMap (fun p => match p with | .message m => some m | _ => none)

/-- one section after the other; `none`: still waiting for input -/
def andThen (r : Option Course) (f : Cmd → Option Course) : Option Course :=
  match r with
  | none => none
  | some (.go s) => f s
  | some (.stop o s) => some (.stop o s)

/-- go on with `s`, or return the error -/
def check (o : Outcome Unit) (s : Cmd) : Course :=
  match o with
  | .ok () => .go s
  | .err e => .stop (.err e) s
  | .panic => .stop .panic s

/-- the state after a run of `Save` -/
def Cmd.saved (s : Cmd) (r : SaveRun) : Cmd :=
  { s with disk := r.disk s.disk, k := r.k, touched := s.touched ++ [⟨r.k.persistence, r.contents⟩] }

/-- `err = k.Save(); if err != nil { return err }` -/
def saveStep (C : Codec) (E : PwEnv) (W : World) (s : Cmd) : Option Course :=
  (save C E W s.disk s.k).map (fun r => check r.outcome (s.saved r))

/-- `err = k.Load(); if err != nil { return err }` -/
def loadStep (C : Codec) (E : PwEnv) (W : World) (s : Cmd) : Option Course :=
  (load C E W s.disk s.k).map (fun r => check r.1 { s with k := r.2 })

/-- `setSaltAndPFK`, cmd/krypto431/functions.go:157-180. -/
def setSaltAndPFK (E : PwEnv) (a : Access) (k : Krypto) : Outcome Unit × Krypto :=
  if a.pfk.isSome && a.password.isSome then (.err .other, k)
  else
    match (match a.salt with | none => (.ok (), k) | some s => setSaltFromString s k : Outcome Unit × Krypto) with
    | (.ok (), k) =>
      match a.pfk with
      | some s => setPFKFromString s k
      | none =>
        match a.password with
        | some p => setPFKFromPassword E p k
        | none => (.ok (), k)
    | r => r

/-- The instance a command starts with, before `Load`: `New(WithPersistence(file), WithInteractive(true))` and `setSaltAndPFK`
(cmd/krypto431/keys.go:29-34, messages.go:28-33, pfk.go:28-33). -/
def prepared (E : PwEnv) (a : Access) (file : List Nat) : Outcome Unit × Krypto :=
  setSaltAndPFK E a (new [withPersistence file, withInteractive true])

/-- cmd/krypto431/keys.go:29-38, messages.go:28-37 -/
def openStore (C : Codec) (E : PwEnv) (W : World) (a : Access) (file : List Nat) (disk : Disk) : Option Course :=
  let p := prepared E a file
  andThen (some (check p.1 ⟨disk, p.2, [], []⟩)) (loadStep C E W)

/-! ## Output files -/

/-- `filepath.Ext`: from the last dot of the last path element on.  The argument is reversed. -/
def extRev : List Nat → List Nat → List Nat
  | [], _ => []
  | c :: cs, acc => if c = 47 then [] else if c = 46 then 46 :: acc else extRev cs (c :: acc)

/-- `filepath.Ext` -/
def pathExt (file : List Nat) : List Nat := extRev file.reverse []

/-- the kind of output -/
inductive OutKind where
  | pdf | txt | unknown
  deriving DecidableEq

/-- Choosing the kind of output, cmd/krypto431/keys.go:238-260, messages.go:174-196; `type` is `none` unless set, else the default `pdf`. -/
def outKind (type : Option (List Nat)) (file : List Nat) : OutKind :=
  let t := match type with
    | some t => t
    | none => if pathExt file = ascii ".pdf" ∨ pathExt file = ascii ".PDF" then ascii "pdf"
      else if pathExt file = ascii ".txt" ∨ pathExt file = ascii ".TXT" then ascii "txt" else ascii "pdf"
  if t = ascii "pdf" ∨ t = ascii "PDF" then .pdf
  else if t = ascii "txt" ∨ t = ascii "text" ∨ t = ascii "TXT" then .txt
  else .unknown

/-- Writing an output file: `O_CREATE|O_TRUNC`, then the text (print.go:206-215, 223-232; `OutputFileAndClose` does the same). -/
def writeOutput (W : World) (file body : List Nat) (s : Cmd) : Course :=
  if W.openFails then .stop (.err .other) s
  else
    let n := match W.room with | none => body.length | some n => min n body.length
    let cs := (List.range (n + 1)).map body.take
    let s' := { s with disk := s.disk.set file (body.take n), touched := s.touched ++ [⟨file, cs⟩] }
    if n < body.length then .stop (.err .other) s' else .go s'

/-- `--output`: cmd/krypto431/keys.go:234-261 with `KeysTextFile`, `KeysPDF` (print.go:201-216, 235-276); cmd/krypto431/messages.go:170-197 with
`MessagesTextFile`, `MessagesPDF` (print.go:218-233, 278-319).  `items` are the selected keys or messages; the text and the page drawing are a parameter
(`none`: drawing failed). -/
def outputStep {α : Type} (W : World) (type : Option (List Nat)) (render : OutKind → List α → Option (List Nat)) (file : Option (List Nat))
    (items : List α) (s : Cmd) : Course :=
  match file with
  | none => .go s
  | some file =>
    if file.length = 0 then .stop (.err .other) s
    else
      match outKind type file with
      | .unknown => .stop (.err .other) s
      | .txt =>
        if items.length = 0 then .stop (.err .other) s
        else
          match render .txt items with
          | none => .stop (.err .other) s
          | some body => writeOutput W file body s
      | .pdf =>
        if items.length = 0 then .go s
        else
          match render .pdf items with
          | none => .stop (.err .other) s
          | some body => writeOutput W file body s

/-! ## keys -/

/-- The options of `keys` besides the filters (cmd/krypto431/krypto431.go:222-340).  `expire` is the result of `dtg.Parse` if the option is set.
`others` says that `--edit` or, without effect, `--list=false`, `--delete=false` and the like are set. -/
structure KeysCmd where
  access : Access := {}
  file : List Nat
  filter : KeyOpts := {}
  delete : Bool := false
  yes : Bool := false
  newKeys : Option Int := none
  expire : Option (Outcome Int) := none
  importFile : Option (List Nat) := none
  exportFile : Option (List Nat) := none
  list : Bool := false
  output : Option (List Nat) := none
  type : Option (List Nat) := none
  others : Bool := false

/-- What the command `keys` meets: a world per use of the file system, clock and dates, the answers to the question which keys to delete (`none`: the prompt failed),
random draws, wipe noise, the answers while importing, the layout of printed keys. -/
structure KeysEnv where
  loadW : World
  deleteW : World
  newW : World
  readW : World
  importW : World
  exportW : World
  outputW : World
  now : Int
  clock : Nat → Int
  date : Int → Runes
  choose : List Runes → Option (List Runes)
  tape : Tape
  noise : Nat → Noise
  noises : Nat → Nat → Noise
  answer : Key → Option Bool
  render : OutKind → List Key → Option (List Nat)

/-- Deleting keys, cmd/krypto431/keys.go:93-148. -/
def keysDelete (C : Codec) (E : PwEnv) (U : Unicode) (V : KeysEnv) (o : KeysCmd) (s : Cmd) : Option Course :=
  if o.delete then
    if s.k.inst.keys.length = 0 then some (.stop (.ok ()) s)
    else
      let finish := fun (r : Nat × Inst) =>
        let s' := { s with k := { s.k with inst := r.2 } }
        if r.1 > 0 then saveStep C E V.deleteW s' else some (.go s')
      if !o.yes then
        let lines := (summaryOfKeys V.date (keyFilter U V.now o.filter) s.k.inst).2
        if lines.length = 0 then some (.stop (.ok ()) s)
        else
          match V.choose (lines.map goStr) with
          | none => some (.stop (.err .other) s)
          | some response =>
            if response.length > 0 then finish (deleteKeysBySummary U V.noises s.k.inst response)
            else finish (0, s.k.inst)
      else finish (deleteKey U V.noise s.k.inst (vettedKeepers U o.filter.ids))
  else some (.go s)

/-- Generating keys, cmd/krypto431/keys.go:150-165; `none`: the random tape is used up. -/
def keysNew (C : Codec) (E : PwEnv) (U : Unicode) (V : KeysEnv) (o : KeysCmd) (s : Cmd) : Option Course :=
  match o.newKeys with
  | none => some (.go s)
  | some n =>
    if n > 0 then
      match generateKeys U V.clock V.now n o.expire o.filter.keepers s.k.inst V.tape with
      | none => none
      | some (r, inst, _) =>
        andThen (some (check r { s with k := { s.k with inst := inst } })) (saveStep C E V.newW)
    else some (.go s)

/-- Importing keys, cmd/krypto431/keys.go:167-185. -/
def keysImport (C : Codec) (E : PwEnv) (U : Unicode) (V : KeysEnv) (o : KeysCmd) (s : Cmd) : Option Course :=
  match o.importFile with
  | none => some (.go s)
  | some f =>
    if f.length = 0 then some (.stop (.err .other) s)
    else
      match importFrom C E V.readW U V.noise V.answer (keyFilter U V.now o.filter) [.persistence f, .interactive true] s.disk s.k with
      | none => none
      | some (r, _, k) => andThen (some (check r { s with k := k })) (saveStep C E V.importW)

/-- Exporting keys, cmd/krypto431/keys.go:187-204.  The instance is not changed by `k2.Save()`. -/
def keysExport (C : Codec) (E : PwEnv) (U : Unicode) (V : KeysEnv) (o : KeysCmd) (s : Cmd) : Option Course :=
  match o.exportFile with
  | none => some (.go s)
  | some f =>
    if f.length = 0 then some (.stop (.err .other) s)
    else
      (save C E V.exportW s.disk (exportKeys (keyFilter U V.now o.filter) [withPersistence f, withOverwrite o.yes] s.k)).map
        (fun r => check r.outcome { s.saved r with k := s.k })

/-- What a listing prints, cmd/krypto431/keys.go:223-230 and cmd/krypto431/messages.go:160-166: file, call-sign, number of keys and messages, and the lines without the blanks at their ends. -/
def listingOf (U : Unicode) (k : Krypto) (header : Runes) (lines : List Runes) : Printed :=
  .listing k.persistence (goStr k.inst.callSign) k.inst.keys.length k.inst.messages.length ((header :: lines).map (fun l => trimRight U.isSpace (goStr l)))

/-- Listing keys, cmd/krypto431/keys.go:206-231: ends the command if nothing is to be listed. -/
def keysList (U : Unicode) (V : KeysEnv) (o : KeysCmd) (s : Cmd) : Course :=
  if o.list then
    if s.k.inst.keys.length = 0 then .stop (.ok ()) s
    else
      let t := summaryOfKeys V.date (keyFilter U V.now o.filter) s.k.inst
      if t.2.length = 0 then .stop (.ok ()) s else .go { s with printed := s.printed ++ [listingOf U s.k t.1 t.2] }
  else .go s

/-- an operation is asked for (cmd/krypto431/keys.go:17-27) -/
def KeysCmd.any (o : KeysCmd) : Bool :=
  o.delete || o.newKeys.isSome || o.importFile.isSome || o.exportFile.isSome || o.list || o.output.isSome || o.others

/-- `keys`, cmd/krypto431/keys.go:16-263; `none`: still waiting for input. -/
def keysCommand (C : Codec) (E : PwEnv) (U : Unicode) (V : KeysEnv) (o : KeysCmd) (disk : Disk) : Option Course :=
  if !o.any then some (.stop (.ok ()) ⟨disk, newBase, [], []⟩)
  else
    andThen (andThen (andThen (andThen (andThen (andThen
      (openStore C E V.loadW o.access o.file disk)
      (keysDelete C E U V o))
      (keysNew C E U V o))
      (keysImport C E U V o))
      (keysExport C E U V o))
      (fun s => some (keysList U V o s)))
      (fun s => some (outputStep V.outputW o.type V.render o.output (s.k.inst.keys.filter (keyFilter U V.now o.filter)) s))

/-! ## messages -/

/-- The options of `messages` (cmd/krypto431/krypto431.go:341-407). -/
structure MsgsCmd where
  access : Access := {}
  file : List Nat
  filter : MsgOpts := {}
  delete : Bool := false
  yes : Bool := false
  new : Bool := false
  list : Bool := false
  output : Option (List Nat) := none
  type : Option (List Nat) := none
  others : Bool := false

/-- What the command `messages` meets; `radiogram` is the text entered or read from standard input (`none`: that failed). -/
structure MsgsEnv where
  loadW : World
  deleteW : World
  newW : World
  outputW : World
  radio : RadioEnv
  radiogram : Option Runes
  date : Int → Runes
  digest : Msg → Runes
  fresh : Nat → Runes
  freshId : Runes
  choose : List Runes → Option (List Runes)
  tape : Tape
  noise : Nat → Nat → Rune
  noises : Nat → Nat → Nat → Rune
  wipeNoise : Nat → Rune
  render : OutKind → List Msg → Option (List Nat)

/-- Deleting messages, cmd/krypto431/messages.go:72-127. -/
def messagesDelete (C : Codec) (E : PwEnv) (U : Unicode) (V : MsgsEnv) (o : MsgsCmd) (s : Cmd) : Option Course :=
  if o.delete then
    if s.k.inst.messages.length = 0 then some (.stop (.ok ()) s)
    else
      let finish := fun (r : Nat × Inst) =>
        let s' := { s with k := { s.k with inst := r.2 } }
        if r.1 > 0 then saveStep C E V.deleteW s' else some (.go s')
      if !o.yes then
        match summaryOfMessages U V.fresh V.date V.digest (msgFilter U o.filter) s.k.inst with
        | .err e => some (.stop (.err e) s)
        | .panic => some (.stop .panic s)
        | .ok (inst, _, lines) =>
          let s1 := { s with k := { s.k with inst := inst } }
          if lines.length = 0 then some (.stop (.ok ()) s1)
          else
            match V.choose (lines.map goStr) with
            | none => some (.stop (.err .other) s1)
            | some response =>
              if response.length > 0 then finish (deleteMessagesBySummary U V.noises inst response)
              else finish (0, inst)
      else finish (deleteMessage V.noise s.k.inst (vettedMessageIds U o.filter.ids))
  else some (.go s)

/-- A new message, cmd/krypto431/messages.go:129-141 with `PromptNewTextMessage`, messages.go:169-184.  The message is printed before it is saved. -/
def messagesNew (C : Codec) (E : PwEnv) (U : Unicode) (V : MsgsEnv) (o : MsgsCmd) (s : Cmd) : Option Course :=
  if o.new then
    match V.radiogram with
    | none => some (.stop (.err .other) s)
    | some r =>
      match newTextMessageRun U V.wipeNoise V.radio V.freshId s.k.inst [r] V.tape with
      | none => none
      | some ((.err e, inst), _) => some (.stop (.err e) { s with k := { s.k with inst := inst } })
      | some ((.panic, inst), _) => some (.stop .panic { s with k := { s.k with inst := inst } })
      | some ((.ok m, inst), _) =>
        saveStep C E V.newW { s with k := { s.k with inst := inst }, printed := s.printed ++ [.message m] }
  else some (.go s)

/-- Listing messages, cmd/krypto431/messages.go:143-167. -/
def messagesList (U : Unicode) (V : MsgsEnv) (o : MsgsCmd) (s : Cmd) : Course :=
  if o.list then
    if s.k.inst.messages.length = 0 then .stop (.ok ()) s
    else
      match summaryOfMessages U V.fresh V.date V.digest (msgFilter U o.filter) s.k.inst with
      | .err e => .stop (.err e) s
      | .panic => .stop .panic s
      | .ok (inst, header, lines) =>
        let s1 := { s with k := { s.k with inst := inst } }
        if lines.length = 0 then .stop (.ok ()) s1 else .go { s1 with printed := s.printed ++ [listingOf U s1.k header lines] }
  else .go s

/-- an operation is asked for (cmd/krypto431/messages.go:16-26) -/
def MsgsCmd.any (o : MsgsCmd) : Bool := o.delete || o.new || o.list || o.output.isSome || o.others

/-- `messages`, cmd/krypto431/messages.go:15-199. -/
def messagesCommand (C : Codec) (E : PwEnv) (U : Unicode) (V : MsgsEnv) (o : MsgsCmd) (disk : Disk) : Option Course :=
  if !o.any then some (.stop (.ok ()) ⟨disk, newBase, [], []⟩)
  else
    andThen (andThen (andThen (andThen
      (openStore C E V.loadW o.access o.file disk)
      (messagesDelete C E U V o))
      (messagesNew C E U V o))
      (fun s => some (messagesList U V o s)))
      (fun s => some (outputStep V.outputW o.type V.render o.output (s.k.inst.messages.filter (msgFilter U o.filter)) s))

/-! ## pfk -/

/-- The options of `pfk` (cmd/krypto431/krypto431.go:166-220); the flags are true if set and not set to false. -/
structure PfkCmd where
  access : Access := {}
  genPFK : Bool := false
  genSalt : Bool := false
  change : Option (List Nat) := none
  old : Option (List Nat) := none
  newSalt : Option (List Nat) := none
  random : Bool := false
  new : Option (List Nat) := none
  newPFK : Option (List Nat) := none
  yes : Bool := false

/-- What the command `pfk` meets: the answer to "Change encryption key?" (`none`: the prompt failed), 32 random bytes (`none`: the random source fails), the passwords
entered. -/
structure PfkEnv where
  loadW : World
  saveW : World
  confirm : Option Bool
  draw : Option (List Nat)
  inputs : List (Option (List Nat))
  noise : Option (Nat → Nat)

/-- `--new-salt`, cmd/krypto431/pfk.go:45-53 and 154-162. -/
def setNewSalt (newSalt : Option (List Nat)) (k : Krypto) : Outcome Unit × Krypto :=
  match newSalt with
  | none => (.ok (), k)
  | some s => setSaltFromString (if s = ascii "default" then defaultSalt else s) k

/-- `AskAndConfirmPassword` and `DerivePFKFromPassword`, cmd/krypto431/pfk.go:119-126 and 181-188; `none`: still waiting. -/
def askNewPFK (E : PwEnv) (V : PfkEnv) (k : Krypto) : Option (Outcome Unit × Krypto) :=
  match askAndConfirm E.strong V.inputs with
  | none => none
  | some a =>
    match a.result with
    | .err e => some (.err e, k)
    | .panic => some (.panic, k)
    | .ok pw => let r := derivePFK E false V.noise (some ⟨pw, false⟩) k; some (r.1, r.2.1)

/-- `generatePFK`, cmd/krypto431/pfk.go:140-193. -/
def generatePFKCommand (E : PwEnv) (V : PfkEnv) (o : PfkCmd) (s : Cmd) : Option Course :=
  let p := setSaltAndPFK E o.access (new [])
  andThen (some (check p.1 { s with k := p.2 })) fun s =>
  let q := setNewSalt o.newSalt s.k
  andThen (some (check q.1 { s with k := q.2 })) fun s =>
    if o.random then
      match generateHex32 V.draw with
      | .ok t => some (.go { s with printed := s.printed ++ [.text t] })
      | .err e => some (.stop (.err e) s)
      | .panic => some (.stop .panic s)
    else
      match o.access.password with
      | some pw =>
        let r := derivePFK E true V.noise (some ⟨pw, false⟩) s.k
        andThen (some (check r.1 { s with k := r.2.1 })) fun s => some (.go { s with printed := s.printed ++ [.text (getPFKString s.k)] })
      | none =>
        match askNewPFK E V s.k with
        | none => none
        | some (r, k) => andThen (some (check r { s with k := k })) fun s => some (.go { s with printed := s.printed ++ [.text (getPFKString s.k)] })

/-- `if !o.yes { doit, err := askYesNo(...) … }` and then `next`; cmd/krypto431/pfk.go:60-68, 85-93, 104-112. -/
def unlessDeclined (V : PfkEnv) (yes : Bool) (s : Cmd) (next : Cmd → Option Course) : Option Course :=
  if yes then next s
  else
    match V.confirm with
    | none => some (.stop (.err .other) s)
    | some false => some (.stop (.ok ()) s)
    | some true => next s

/-- Changing the key of a file, after `Load`: cmd/krypto431/pfk.go:45-131. -/
def changeFileKey (C : Codec) (E : PwEnv) (V : PfkEnv) (o : PfkCmd) (s : Cmd) : Option Course :=
  let q := setNewSalt o.newSalt s.k
  andThen (some (check q.1 { s with k := q.2 })) fun s =>
    if o.random && o.new.isSome then some (.stop (.err .other) s)
    else if o.newPFK.isSome && o.new.isSome then some (.stop (.err .other) s)
    else if o.random then
      unlessDeclined V o.yes s fun s =>
        match generateHex32 V.draw with
        | .err e => some (.stop (.err e) s)
        | .panic => some (.stop .panic s)
        | .ok t =>
          let r := setPFKFromString t s.k
          andThen (some (check r.1 { s with k := r.2 })) fun s => saveStep C E V.saveW { s with printed := s.printed ++ [.text t] }
    else
      match o.new with
      | some pw =>
        let r := setPFKFromPassword E pw s.k
        andThen (some (check r.1 { s with k := r.2 })) fun s => unlessDeclined V o.yes s (saveStep C E V.saveW)
      | none =>
        match o.newPFK with
        | some t =>
          let r := setPFKFromString t s.k
          andThen (some (check r.1 { s with k := r.2 })) fun s => unlessDeclined V o.yes s (saveStep C E V.saveW)
        | none =>
          match askNewPFK E V s.k with
          | none => none
          | some (r, k) => andThen (some (check r { s with k := k })) (saveStep C E V.saveW)

/-- The instance `pfk --change` tries to load with: cmd/krypto431/pfk.go:28-39. -/
def preparedOld (E : PwEnv) (a : Access) (old : Option (List Nat)) (file : List Nat) : Outcome Unit × Krypto :=
  match prepared E a file with
  | (.ok (), k) => match old with | none => (.ok (), k) | some pw => setPFKFromPassword E pw k
  | r => r

/-- `managePFK`, cmd/krypto431/pfk.go:11-136; `none`: still waiting for input. -/
def pfkCommand (C : Codec) (E : PwEnv) (V : PfkEnv) (o : PfkCmd) (disk : Disk) : Option Course :=
  let s : Cmd := ⟨disk, newBase, [], []⟩
  if o.genPFK && o.genSalt then some (.stop (.err .other) s)
  else if o.genPFK then generatePFKCommand E V o s
  else if o.genSalt then
    match generateHex32 V.draw with
    | .ok t => some (.go { s with printed := [.text t] })
    | .err e => some (.stop (.err e) s)
    | .panic => some (.stop .panic s)
  else
    match o.change with
    | none => some (.go s)
    | some file =>
      let p := preparedOld E o.access o.old file
      andThen (andThen (some (check p.1 { s with k := p.2 })) (loadStep C E V.loadW)) (changeFileKey C E V o)

/-! ## initialize -/

/-- The options of `initialize` (cmd/krypto431/krypto431.go:102-165), `none` unless set; `parse` is `dtg.Parse`. -/
structure InitCmd where
  access : Access := {}
  file : List Nat
  yes : Option Bool := none
  call : Option Runes := none
  keys : Option Int := none
  expire : Runes := []
  keepers : Option (List Runes) := none
  keyLength : Option Int := none
  groupSize : Option Int := none
  keyColumns : Int := 30
  columns : Int := 110

/-- The answers to the questions of `initialize`, as accepted by the validators. -/
structure InitAnswers where
  keys : Int
  keepers : Runes
  expire : Runes
  keyLength : Int
  groupSize : Int

/-- What the command `initialize` meets: the call-sign entered (empty if the prompt failed), the further answers (`none`: the prompt failed). -/
structure InitEnv where
  saveW : World
  call : Runes
  answers : Option InitAnswers
  parse : Runes → Outcome Int
  clock : Nat → Int
  now : Int
  tape : Tape

/-- splitting at a separator (`strings.Split` with a separator of one character) -/
def splitAt1 (sep : Rune) : Runes → List Runes
  | [] => [[]]
  | c :: cs =>
    match splitAt1 sep cs with
    | [] => [[c]]
    | p :: ps => if c = sep then [] :: p :: ps else (c :: p) :: ps

/-- The keepers entered, cmd/krypto431/initialize.go:138-147. -/
def enteredKeepers (U : Unicode) (s : Runes) : List Runes :=
  ((splitAt1 44 s).flatMap (fun a => (splitAt1 32 (trimSpace U a)).map (fun t => toUpperStr U (trimSpace U t)))).filter
    (fun t => decide (t.length > 0))

/-- Generating and saving, cmd/krypto431/initialize.go:154-193.  Negative sizes are 0 here; `Assert` rejects both. -/
def initStore (C : Codec) (E : PwEnv) (U : Unicode) (V : InitEnv) (a : Access) (file : List Nat) (yes : Bool) (call : Runes) (keys : Int)
    (expire : Runes) (keepers : List Runes) (keyLength groupSize keyColumns columns : Int) (disk : Disk) : Option Course :=
  let p := setSaltAndPFK E a (new [withPersistence file, withInteractive true, withKeyLength keyLength.toNat, withGroupSize groupSize.toNat,
    withKeyColumns keyColumns.toNat, withColumns columns.toNat, withCallSign U call, withOverwrite yes])
  andThen (some (check p.1 ⟨disk, p.2, [], []⟩)) fun s =>
  andThen (some (check (assertSettings s.k) s)) fun s =>
    if keys > 0 then
      match generateKeys U V.clock V.now keys (if expire.length > 0 then some (V.parse expire) else none) keepers s.k.inst V.tape with
      | none => none
      | some (r, inst, _) => andThen (some (check r { s with k := { s.k with inst := inst } })) (saveStep C E V.saveW)
    else saveStep C E V.saveW s

/-- `initialize`, cmd/krypto431/initialize.go:15-194. -/
def initCommand (C : Codec) (E : PwEnv) (U : Unicode) (V : InitEnv) (o : InitCmd) (disk : Disk) : Option Course :=
  let stop := some (Course.stop (.err .other) ⟨disk, newBase, [], []⟩)
  let yes := o.yes.getD false
  let call : Option Runes :=
    match o.call with
    | none =>
      if yes then none
      else
        let c := toUpperStr U (trimSpace U V.call)
        if c.length = 0 then none else some c
    | some c => some (toUpperStr U (trimSpace U c))
  match call with
  | none => stop
  | some call =>
    if o.yes.isNone && o.call.isNone && o.keys.isNone && o.keepers.isNone && o.keyLength.isNone && o.groupSize.isNone then
      match V.answers with
      | none => stop
      | some a =>
        initStore C E U V o.access o.file yes call a.keys (trimSpace U a.expire) (enteredKeepers U a.keepers) a.keyLength a.groupSize
          o.keyColumns o.columns disk
    else
      initStore C E U V o.access o.file yes call (o.keys.getD 0) o.expire (o.keepers.getD []) (o.keyLength.getD 350) (o.groupSize.getD 5)
        o.keyColumns o.columns disk

end K431
