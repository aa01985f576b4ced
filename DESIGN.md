# krypto431 in Lean 4: model, proofs, trusted base

The object of study is the Go program in `/repo` (sa6mwa/krypto431): a one-time-pad
(DIANA cryptosystem) message tool.  Everything here is about a formal model written by
reading that source; the Go code was neither built nor run.

## 1. Layout

* `properties.jsonl`  the properties, C01, C02, ...
* `MANIFEST.json`     status and theorem names per property
* `lean/Verif/*.lean` model files (definitions with `/repo` citations), helper lemmas,
  and one `Props*.lean` file per area with the property theorems only
* `lean/Verif/Spec.lean` the vocabulary the theorems are stated in, independent of the model
* `seeded/LOG.jsonl`  mutation-testing log

## 2. Modelling decisions

* **Runes** are `Int` (`int32` in Go).  Arithmetic happens only on values already checked to
  be in `A..Z`, so 32-bit wrap-around can not occur.  Go's `%` is `Int.tmod`.
* **Strings** are lists of code points.  `string(runes)` replaces invalid code points by U+FFFD.
  Invalid UTF-8 inside `string` arguments is not modelled.
* **unicode.IsUpper/IsLower/ToUpper/ToLower/IsSpace** are a parameter `U : Unicode`;
  theorems that need facts about them assume `U.Lawful`, a short list of facts that hold for
  Go's tables (ASCII, åäöÅÄÖ, and that the only other runes upper-casing into the coding
  alphabet are U+0131 and U+017F).  `unicode15` is package
  `unicode` with the tables of Unicode 15.0.0 (`UnicodeTables.lean`), from which Go's package is generated too; `unicode15_lawful`
  proves that it has all the properties assumed, for every rune.  All examples and all counterexamples are about
  `unicode15`, so what is refuted is refuted for the tables that the program runs with.  What remains to be trusted is that Go's
  tables are those of Unicode (mappings of assigned characters do not change between versions).
* **Outcomes** are `ok`, `err e`, `panic`.  A function that changes the instance or the
  message returns the new state also when it fails, because deferred functions run then.
* **Randomness, user answers, file contents, wipe noise, time** are explicit parameters; theorems
  quantify over them.
* **Pointers to keys** are indices into the key list (Go: `&k.Keys[i]`).
* **Shared memory.** `m.KeyId = key.Id` copies a slice header, so message and key share
  an array.  Key ids and message key ids are tagged with the address of their array; wiping an
  address rewrites every live slice with that tag.  The effects of wiping on all other slices
  (export/import/delete/close) are in a separate heap model.
* **Regular expressions** (`messages.go`): syntax trees with Go's leftmost-first semantics as an ordered
  list of matches; only the constructs used occur (classes, greedy repetition, groups, options), folding
  of `k` to the Kelvin sign included.  `blox.ReplaceLineBreaks` and `dtg.Parse` are parameters.
* **Random draws** are read from a tape of 64-bit words; `math/rand`'s `Int63`, `Int31n`, `Intn` are transcribed.
  A function returns `none` if the tape is used up before it returns.
* **Loops** are structural recursion or carry fuel with a proof that it suffices.
* **Concurrency** is a small-step interleaving semantics over explicit atomic steps.  For the random generator
  (`RandLock.lean`) lock, each read of the operating system and unlock are steps.  For Encipher (`Conc.lean`) a step has at most one
  access that matters to other goroutines; the deferred release is one step.  `C47_sequential` ties this state
  machine to the sequential `Encipher`.
* **Places** (`Places.lean`): the structs themselves have addresses, slices have a base, length and capacity, and `append` grows as the runtime likes.
  `read_append`, `read_remove`, `read_fill` show that this agrees with the lists of the other files.  What the slices inside a struct hold is by value here.
* **Traces** (`Traces.lean`): the arrays behind the slices that `Encipher` and `Decipher` append to, including those outgrown; again `append` grows as the runtime likes.  Copies that the runtime itself may make (stack growth, swapping, the garbage collector) are not modelled.
* **Histories** (`SpecHistory.lean`) are finite sequences of operations on an instance, with the keys consumed by successful
  Enciphers recorded beside it.
* **Nets** (`SpecNet.lean`): any number of instances with copies of the same keys; an event is a successful Encipher or any Decipher of one station.
* **Command line**: the filters of `keys` and `messages` (`Filter.lean`) take the parsed options and one reading of the clock; the
  number of days is multiplied with 64-bit wrap-around.  Summaries (`Summary.lean`) take the text of dates and digests as parameters.
* **Commands** (`Cli.lean`): `keys`, `messages`, `pfk` and `initialize` from parsed options to the last return, as a sequence of sections that go on or stop.  Every use of the file system has its own
  world (faults, answers, passwords).  Recorded are the file system, the instance, each file touched with all its intermediate contents, and printed secrets, messages and listings; other
  terminal output is left out.  `--edit` is not implemented by the program.
* **Printing** (`Print.lean`): the legend is transcribed; for the division into pages the number of lines of an item is a parameter.
* **Printed messages** (`Traffic.lean`): `Message.String`, `KeysAsText`, `MessagesAsText`.  The heading, the printed keys, the breaking of lines (`blox`) and the text of times (`dtg`)
  are parameters; theorems assume that lines are broken between words only and that times are printed as date-time groups with a zone letter.
* **Persistence key, salt, passwords** (`Krypto.lean`): the unexported fields of an instance, nil pointers explicit; hexadecimal coding transcribed; PBKDF2
  and the strength test are parameters; entered passwords are an input list.
* **Password prompt** (`Prompt.lean`): `AskForPassword` with its goroutine, the signal channel and the terminal, for one call; steps are calls of the libraries, whose behaviour is stated in the file.
* **File system** (`Persist.lean`): contents by path.  A run of `Save` lists the contents the file goes through, from its truncation on, byte by byte; the program may
  die between any two, and writing may fail at any byte.
* **Memory** (`Heap.lean`): for wiping and exporting, arrays of runes, of slice headers and of bytes are explicit, as are variables with pointers to them.  A failing read of the random
  source writes nothing.  Capacities and garbage collection play no role.
* **gob**: zero fields are omitted by the encoder, decoding merges into the receiver, slices with enough capacity are decoded in place.  That gob may reuse arrays inside the
  elements (and so write through arrays shared with other instances) is not modelled.
* **gob + gzip + stream cipher** are one `Codec` with the laws `Codec.Lawful`: the right key opens a complete file; no other key opens any part of it; a beginning of a file
  opens completely or not at all; an empty file does not open; what is written before `Close` does not open.  A codec with these laws exists (`exists_lawful`).

## 3. Not modelled

PDF drawing primitives (only pagination, legend and the page of a key), colour/terminal output, survey prompts (answers are
parameters), the `binary mode` that the program itself does not implement, logging, flag parsing
by urfave/cli, integer overflow of lengths, out-of-memory, and data races below the
granularity described in the concurrency section.

## 4. Properties: what is modelled and how it is proved

| id | model | method |
|----|-------|--------|
| C01 | `diana.go` trigraph on `Int` | arithmetic (omega) over all letters |
| C02 | same, pointers as `Option` | case analysis |
| C03 | `reciprocal-table.txt` transcribed | kernel decision over the complete finite table |
| C04 | chunk enciphering as `zipWith` | induction, existence and uniqueness |
| C05 | `ZeroKey*` | arithmetic |
| C06 | `AppendTrigraphByteByKey` | expected false: witness of the panic, plus partial theorem |
| C07, C08, C61 | coder state machine | induction over the text, state-correspondence invariant |
| C09 | coder + Encipher | expected false (panic on unsupported runes; U+0131/U+017F altered): witness + partial |
| C10 | Encipher and Decipher complete with key store | loop invariant relating coder and decoder at every chunk |
| C11 | groups + TryDecipherPlainText | composition with C10 |
| C12, C13, C15 | Encipher | loop invariants; C15 expected false for given KeyId: witness + partial |
| C14 | histories of operations | invariant over traces; expected false: two witnesses + partial |
| C16 | Encipher failure paths with shared id arrays | expected false (id overwritten): witness + partial |
| C17 | Encipher | expected false (threshold): witness + partial theorems (single chunk, primary-table text); the exact outcome by a count of letters (SpecFits), induction over the text |
| C18, C19 | FindKey | induction; C19 expected false: witness + partial |
| C20-C22, C62, C63 | Decipher / TryDecipherPlainText | case analysis and loop invariants |
| C23-C29 | key and message store operations | list induction, trace invariants; C25, C27 expected partial |
| C30-C32 | helper functions | list induction |
| C33-C37, C65, C66 | persistence | gob merge model, file-system steps, ideal authenticated file codec; C33, C35, C37 expected partial |
| C38-C41, C64 | export, import, wipe | store model and heap model; C38, C41 expected partial |
| C42-C44 | PFK, salt, password | hex model, interaction as input lists |
| C45 | crand / math/rand Int63, Int31n, Intn | counting fibres exactly |
| C46, C47 | interleavings | invariant over all schedules; C47 expected false: witness |
| C48, C49 | NewTextMessage | composition; C49 expected false: witness |
| C50, C51 | regular expressions by ordered-match semantics | induction over expressions; C51 expected false |
| C68 | the same expressions on the short form | the preferred match is computed for symbolic words; expected false for one kind of date-time group |
| C69, C70 | printed messages, composed with Encipher, ParseRadiogram and NewTextMessage | words of texts as an inductive relation; C69 expected false for counts of five digits |
| C71 | any number of instances with copies of the same keys | invariant over all orders of events; expected false for stations that do not listen |
| C72 | a store whose key letters are unknown; lists of messages | counting: the used letters form disjoint prefixes of pads; composition with the counting of C45 |
| C73 | a file and the pads used so far; runs of `messages` that may fail or be killed | invariant over runs: whoever opens the file finds the used pads marked |
| C74 | runs of `keys` and `messages` that only list and print | the list of files touched, section by section |
| C75 | runs of `keys --new` | composition of C24, C25 and the persistence theorems |
| C76 | runs of `messages --new`, and of two stations | composition of C48, C68, C69 and the persistence theorems |
| C77 | runs of `keys --import` | C39 applied to the loaded store, whose arrays are apart, and the persistence theorems |
| C78 | runs of `keys --export`, then `keys --import` | own file as target and key without password as counterexamples; else composition of the two commands |
| C79 | runs of `keys --delete` and `messages --delete` with selection | summary lines name the ids (C55); scan for the summary marks and deciphers only; then `Save` (C34) |
| C80 | all sequences of runs of all commands on a file system | invariant: whoever opens a file gets the encoding of a store in order; kept by every section of every command, by the codec laws also by partial writes |
| C81 | the same, with the words of the random source for each run | the invariant of C80 with a set of keys made so far; the draws of `NewKey` follow one another in the letters of the tape |
| C82 | every file a run leaves, complete or killed, against what it held before | one invariant over the sections of a command: the key stays, every change of a file is a recorded write, every recorded write is the beginning of an encryption or of the printed text |
| C83 | every history of two stations that make keys, hand them over and send messages, from linked files | invariant over the history: the files are linked, and every pad used so far is in both files and marked as used; one lemma for each kind of step, from C75, C76, C77 and C78 |
| C84 | every file, radiogram and set of keys that suffice for the text | the result of the parser (C68), success of `Encipher` (C17), and of saving; then C83 |
| C85 | every text and store | induction over the coding loop: letters written and keys given up, against the capacity of the keys |
| C86 | every ciphertext | the loop of `Decipher` simulates the reader of `SpecLegend` in both directions, by induction on the ciphertext |
| C87 | every ciphertext and damage | the loop does not look at the text found so far; determinism of the loop after a common beginning |
| C88 | all runs of the commands | no section panics; the key in memory has 32 bytes before each use; loaded stores are in order (C80) |
| C89 | all rows and headers | widths are those of the cells seen so far |
| C90 | all sequences of steps | arrays of an instance made by New are its own and all in them name it |
| C91 | all sequences of steps | the address stays in the slice with its id; the address of a copy is in no slice |
| C92 | all stores and filters | the width of a column is at least the length of each entry so far |
| C93 | all messages, stores, outcomes, growth of arrays | the arrays of all chunks hold the coded text so far; with keys of at most 697 letters none is outgrown |
| C94 | all ciphertexts, stores, growth of arrays | the arrays are those of a slice grown from nothing by the plaintext so far |
| C95 | all lists of keys and ids | the loop has passed no key with that id |
| C96 | all runs of `initialize` that report success, and all histories of two stations after two of them | what `initialize` saves and with which key; the files are linked, then C83 |
| C97 | the page of a printed key as cells in rows and columns | the parts drawn occupy different cells; rows read one after the other are the groups (C32) |
| C98 | two goroutines, a channel, signals and the terminal as a state machine | invariant over all runs |
| C99 | equality of outputs for different secrets | the list is the same as for keys without letters |
| C100 | starts and ends of runs in any order; a run works with the file as it was at its start | invariant of C73 |
| C101 | the forms and ends of a radiogram as layouts of words, signs and blanks | first match of each expression; the earlier expressions have none |
| C102 | same | same; the text must not look like a heading of its own |
| C103 | model of C13; dates and comments of all keys changed by arbitrary functions | every function commutes with the change |
| C104 | two stores, one holding the pads of the other | the two loops of Decipher run in step |
| C105 | histories of runs, with the file as each run has read it | invariant: file, and memory after Load, hold all that was there |
| C106 | messages in memory, radiogram included | frame and agreement of memories; text is a part of the radiogram |
| C107 | tables and procedures of README.md, transcribed | all cells of both tables by the kernel; induction over the text |
| C108 | Assert, GenerateKeys, Encipher | expected false (key length not above group size): witness by C17_exact; else C17_partial with the shape of new keys (C24) |
| C109 | Encipher, Decipher | expected false (one-time pad without authentication): forging by shifting letters, for every pad, through reading by hand (C86, C107_fill); positive: the receiver's loop is online, so the simulation of C10 up to the end of a beginning of the text |
| C110 | Key.GoString, Message.GoString | expected true for keys, false for messages (the id is missing): cut at the separators, names between commas are unique; also: the form contains the secret letters |
| C111 | Encipher, EnrichWithKey | expected false (a named key is used again): the difference of two ciphertexts under one pad is the difference of the texts; hence no choice of pads explains another second text; positive: counting, from C72 |
| C112 | README: dice | expected false as written: recurrences for the number of sequences of throws that lead to a number, induction over their length |
| C113 | MarkKeyUsed, release in Encipher | expected false (look-up by overwritten ids): invariant of histories with ids kept apart, every step keeps marks |
| C114 | all operations on an instance | every step carries the keys up to ids, keepers and marks; composition |
| C115 | all operations on an instance not applied to a given message | expected false (DeleteKey overwrites the array of the id, which the message shares): invariant that a set of arrays is reserved for the message, every step keeps it; with the empty set this gives all contents but the key id |
| C116 | Decipher, all failing calls | expected false (the text is emptied first): cases on the checks before the loop, then an invariant of the loop that says what has been read so far, against reading by hand |
| C117 | all operations on an instance, then Encipher without a named key | expected false (deleting moves the last key to the gap): invariant that keys of which none is lost stay at the front of the store; invariant of the coding loop that no suitable key before a taken one is left |
| C118 | all operations on messages and keys | expected false (deleting moves the last message to the gap): as C117, for the ids of the messages |
| C119 | `newKey`, `generateKeys`, `newUniqueMessageId`, `parseRadiogram` | expected false (a group size of 1 has only 26 ids): the share of tapes of length L with which the call has not returned tends to 0 (`Ends`), exactly when there are enough free ids; otherwise no tape makes it return |
| C120 | `tryDecipher`, `filterText`, `parseRadiogram`, `newTextMessageRun` | two texts that differ in blanks, `=` and letter case only (`Respaced`, inductive) give the same outcome, instance and message; likewise two whole radiograms |
| C121 | `decipher`, `tryDecipher`, `getKey` | two stores with the same ids and letters (`SamePads`) give the same outcome and message; simulation of the two deciphering loops |
| C122 | `findKey`, `encipher` | expected false (`FindKey` minds case): equal for lists with the same members, and for lists in capitals that name the same stations |
| C123 | `outKind`, `outputStep`, `keysCommand`, `messagesCommand` | expected false (an empty PDF is silently not written): true if something is selected; the kind of file is characterised by the ending of its name |
| C124 | `generatePFKCommand`, `pfkCommand`, `prepared` | the line printed is determined by the password given and the salt given; reading it back as `--pfk` gives the same instance |
| C125 | `enteredKeepers`, `initCommand` | words defined by an inductive relation; the run with answers equals the run with options |
| C126 | `goStr` | kept exactly if equal to the characters of some `String` |
| C127 | `keysCommand`, `messagesCommand` | no error → a file was written for each operation asked for |
| C128 | `deleteKey`, `deleteMessage`, `save`, `keysCommand`, `messagesCommand` | stores that differ only in what is deleted → the same file, at every moment of writing |
| C129 | `importKeys` | a second import without permission to replace = nothing |
| C130 | `importKeys`, `findKey` | marks of a key before the import → marks after it |
| C131 | `keysCommand`, `keysNew`, `generateKeys` | options of `keys --new` → expiry and keepers of the keys stored |
| C132 | `keysCommand`, `messagesCommand`, `pfkCommand`, `initCommand`, `importKeys`, `save` | command run with one set of answers and with another → the same course |
| C133 | `keysCommand`, `messagesCommand`, `keyFilter`, `msgFilter`, `deleteKey`, `deleteMessage` | selecting options and the file before → items in the file afterwards |
| C134 | `keysCommand`, `messagesCommand`, `pfkCommand`, `load`, `importKeys` | key of the file and everything given or entered → error, disk as before, nothing printed |
| C135 | `keysCommand`, `messagesCommand`, `keysList`, `messagesList`, `summaryOfKeys`, `summaryOfMessages` | file loaded and filter → what is printed |
| C136 | `keysCommand`, `messagesCommand` run twice; `vettedKeepers`, `vettedMessageIds`, `summaryOfKeys`, `summaryOfMessages` | lines printed → ids given → file left |
| C137 | `keysCommand`, `messagesCommand` run twice | file left by the first run → course of the second (C54 twice) |
| C138 | `pfkCommand` run any number of times | induction over the runs (C67 at each) |
| C139 | `prepared`, `preparedOld`, `openStore` | cases over the ways of giving the key |
| C140 | `pfkCommand`, `changeFileKey`, `save` | case analysis of every way to end without error |
| C52, C53 | CLI filters | case analysis; C52 expected partial |
| C54, C57, C58, C67 | whole commands `keys`, `messages`, `pfk`, `initialize` on the file system | case analysis over the sections of a command, composed with the persistence theorems; C57, C58 expected partial |
| C55 | summary formatting and parsing | list induction |
| C56 | pagination loops | loop invariant; page bound and order expected partial |
| C59 | time arithmetic on integers | omega |
| C60 | legend rows transcribed | kernel decision over the complete finite table |

## 5. Trusted base

* the Lean 4 kernel; axioms: at most `propext`, `Classical.choice`, `Quot.sound`
  (no own axioms, no `sorry`, no `native_decide`, no `bv_decide`); for each theorem see below;
* the faithfulness of the transcription from Go (each definition cites file and lines; section 6 lists all functions);
* the laws listed in section 2 for the external packages.

What `#print axioms` says for the theorems in `MANIFEST.json`:

* no axioms: Dice.C112_violated, C56_violated, C56_violated_size;
* `propext`: C06_violated, C06_violated_refused, C30_nil, Mem.C38_violated, C65_violated_declined, C89_violated, C98_violated;
* `propext`, `Quot.sound`: C02_trigraph_rejects, Mem.C106_partial, C116_lost, C33_violated, C33_violated_empty, C34_permission, C36_wrong_key, C36_unchanged, C37_violated_wiped, C37_violated_exported, C37_partial, Mem.C38_partial, C39_loadFails, Mem.C41_violated, Mem.C41_instance, C43_accepts, C44_partial, C44_function, C45_range, C46_blocks, C46_program, C46_lock, C46_release, C46_progress, C47_sequential, C65_violated, C66_partial, C82_closed, C83_begin, C89_panics, C89_extremes, Place.C90_load_partial, C94_partial, C94_left, C95_get, C95_mark, C98_partial, C98_at_once, C98_ends, C98_gone;
* `propext`, `Classical.choice`, `Quot.sound`: all others (330).

## 6. The functions of the program and where they are modelled

All functions outside tests.  Names are Lean modules and the definitions in them that cite lines of the function.

### cipher.go

| function | model |
|---|---|
| `isUpper` | Basic: `Unicode`, `unicode15` |
| `isLower` | Basic: `Unicode`, `unicode15` |
| `isLetter` | Basic: `Unicode`, `unicode15` |
| `toUpper` | Basic: `Unicode`, `unicode15` |
| `toLower` | Basic: `Unicode`, `unicode15` |
| `newState` | Codec: `newState` |
| `appendRune` | Codec (whole module) |
| `codecState.reset` | Codec (whole module) |
| `codecState.reset` | Codec: `newState` |
| `codecState.nextTable` | Codec: `nextTable` |
| `codecState.toggleCase` | Codec: `toggleCase` |
| `codecState.toggleBinary` | Codec: `toggleBinary` |
| `codecState.gotoTable` | Codec: `gotoLoop`, `gotoTable` |
| `codecState.changeKey` | Codec: `changeKey`; Traces: `changeKeyWork` |
| `codecState.pad` | Codec: `pad` |
| `codecState.encodeCharacter` | Codec: `findInTable`, `findInTables`, `encodeCharacter`; Traces: `encodeAppends` |
| `codecState.decodeCharacter` | Codec: `toggleBinary`, `decodeCharacter`; Traces: `decLoopWork` |
| `Message.Encode` | Codec: `encodeAll` |
| `Message.Decode` | Codec: `decodeAll` |
| `Krypto431.FindKey` | Store: `findKeyFrom`, `findKey` |
| `Krypto431.GetKey` | Places: `World.getKey`; Store: `lookupName`, `getKeyFrom`, `getKey` |
| `Krypto431.MarkKeyUsed` | Places: `World.writeKey`; Store: `lookupName`, `getKeyFrom`, `markKeyUsed` |
| `Message.EnrichWithKey` | Cipher: `withId`, `presetCheck`, `enrichWithKey`; Store: `Sl`, `Key` |
| `Message.Encipher` | Cipher: `withId`, `keyExhausted`, `nextChunk`, `encLoop`, `cipherChunk`, `cipherChunks`, `totalLength`, `padCount`, `release`, `encipherT`; Codec: `changeKey`, `encodeAll`; Conc: `eFail`; Diana: `trigraph`; Traces: `encLoopWork`, `wipeWorks`, `encipherWork` |
| `Message.Decipher` | Cipher: `decStep`, `decipher`; Codec: `decodeAll`; Diana: `trigraph`; Traces: `decLoopWork`, `decipherWork` |
| `Message.TryDecipherPlainText` | Basic: `Unicode`; Cipher: `filterText`, `tryDecipher` |

### cmd/krypto431/functions.go

| function | model |
|---|---|
| `getOptions` | Filter: `KeyOpts` |
| `generateSalt` | prints a salt from `GenerateSalt` |
| `setSaltAndPFK` | Cli: `setSaltAndPFK` |
| `askYesNo` | answers are a parameter |
| `eprintf` | terminal output, left out |
| `eprintln` | terminal output, left out |

### cmd/krypto431/initialize.go

| function | model |
|---|---|
| `initialize` | Cli: `enteredKeepers`, `initStore`, `initCommand` |

### cmd/krypto431/keys.go

| function | model |
|---|---|
| `keys` | Cli: `prepared`, `openStore`, `outKind`, `outputStep`, `keysDelete`, `keysNew`, `keysImport`, `keysExport`, `listingOf`, `keysList`, `KeysCmd.any`, `keysCommand`; Filter: `listedFold`, `validOption`, `keyFilter` |

### cmd/krypto431/krypto431.go

| function | model |
|---|---|
| `fatalf` | prints and exits |
| `main` | Cli: `Access`, `KeysCmd`, `MsgsCmd`, `PfkCmd`, `InitCmd`; SpecCli: `KeyOpts.Asks` |

### cmd/krypto431/messages.go

| function | model |
|---|---|
| `messages` | Cli: `outputStep`, `listingOf`, `messagesDelete`, `messagesNew`, `messagesList`, `MsgsCmd.any`, `messagesCommand`; Filter: `listed`, `msgFilter` |

### cmd/krypto431/pfk.go

| function | model |
|---|---|
| `managePFK` | Cli: `setNewSalt`, `askNewPFK`, `unlessDeclined`, `changeFileKey`, `preparedOld`, `pfkCommand` |
| `generatePFK` | Cli: `setNewSalt`, `askNewPFK`, `generatePFKCommand` |

### crand/crand.go

| function | model |
|---|---|
| `cryptoRandSource.Seed` | Crand: `int63` |
| `cryptoRandSource.Int63` | Crand: `int63` |
| `cryptoRandSource.Uint64` | Crand: `Tape`; RandLock: `RStep` |
| `cryptoRandSource.Read` | Heap: `Source`; RandLock: `RStep` |
| `cryptoRandSource.ReadRunes` | Heap: `Source`; RandLock: `RStep` |
| `Seed` | does nothing |
| `Int63` | method of `math/rand` on the modelled source |
| `Uint32` | not used |
| `Uint64` | not used |
| `Int31` | not used |
| `Int` | not used |
| `Int63n` | not used |
| `Int31n` | Crand: `intn` |
| `Intn` | Crand: `intn` |
| `Float64` | not used |
| `Float32` | not used |
| `Perm` | not used |
| `Shuffle` | not used |
| `Read` | the modelled source |
| `ReadRunes` | the modelled source |
| `NormFloat64` | not used |
| `ExpFloat64` | not used |

### diana/diana.go

| function | model |
|---|---|
| `TrigraphByte` | Diana: `trigraphOutOfRange`, `trigraphValue`, `trigraphByte` |
| `TrigraphRune` | Diana: `trigraphOutOfRange`, `trigraphValue`, `trigraphRune` |
| `ZeroKeyByte` | Diana: `zeroKeyByte` |
| `ZeroKeyRune` | Diana: `zeroKeyRune` |
| `AppendTrigraphByteByKey` | Diana: `appendTrigraphByteByKey` |

### functions.go

| function | model |
|---|---|
| `TrimRightRuneFunc` | Functions: `trimRight` |
| `SetMinimumPasswordEntropyBits` | the strength test is a parameter |
| `RandomAlnumRunes` | Crand: `intns`, `alnumOf`, `randomAlnumRunes` |
| `IsTerminal` | parameter |
| `groups` | Functions: `groupsLoop`, `groups` |
| `AllNeedlesInHaystack` | Functions: `eqBy`, `needleIn`, `allNeedlesLoop`, `allNeedlesInHaystack` |
| `AnyNeedleInHaystack` | Functions: `anyNeedleLoop`, `anyNeedleInHaystack` |
| `AnyOfThem` | Functions: `anyOfThem` |
| `RunesToStrings` | Summary: `joinRunes` |
| `JoinRunesToString` | Summary: `joinRunes` |
| `VettedKeepers` | Functions: `isSep`, `vetFields`, `vettedKeepers` |
| `VettedRecipients` | calls `VettedKeepers` |
| `VettedCallSigns` | calls `VettedKeepers` |
| `VettedKeys` | calls `VettedKeepers` |
| `VettedMessageIds` | Functions: `vettedMessageIds` |
| `EqualRunes` | Functions: `equalLoop`, `equalRunes` |
| `EqualRunesFold` | Functions: `equalFoldLoop`, `equalRunesFold` |
| `ColumnSizes` | Columns: `columnLoop`, `rowLoop`, `columnSizes` |
| `predictColumnSizesOfKeys` | Summary: `keySizesLoop`, `keySizes` |
| `predictColumnSizesOfMessages` | Summary: `msgSizesLoop`, `msgSizes` |
| `padding` | Functions: `padding` |
| `withPadding` | Functions: `withPadding` |
| `HighestInt` | Functions: `highestLoop`, `highestInt` |
| `LowestInt` | Functions: `lowestLoop`, `lowestInt` |
| `RuneCopy` | Heap: `newRunes` |
| `RunePtr` | address of a slice |
| `ByteCopy` | Heap: `newBytes`; Persist: `exportKeys` |
| `BytePtr` | Heap: `newBytes` |

### keys.go

| function | model |
|---|---|
| `Key.GoString` | GoString: `Key.goString` |
| `Krypto431.ContainsKeyId` | Keys: `containsKeyIdLoop`, `containsKeyId` |
| `Key.ContainsKeeper` | Keys: `containsNames` |
| `Krypto431.NewKey` | Crand: `intns`, `letterOf`; Keys: `newIdLoop`, `newKeyLength`, `newKey`; Places: `World.addKey`, `World.newKey` |
| `Krypto431.DeleteKey` | Keys: `firstIdx`, `swapRemove`, `deleteKeyOnce`, `deleteKey`; Places: `Bank.remove`, `World.deleteKey` |
| `Krypto431.DeleteKeyByString` | Keys: `deleteKeyByString` |
| `Krypto431.DeleteKeysBySummaryString` | Keys: `deleteKeysBySummary` |
| `Krypto431.GenerateKeys` | Keys: `generateLoop`, `generateKeys` |
| `Key.AddKeeper` | Keys: `addKeeper` |
| `Key.RemoveKeeper` | Keys: `firstIdx`, `swapRemove`, `removeFirst`, `removeKeeper` |
| `Key.GetInstance` | field access |
| `Key.SetInstance` | Places: `World.setInstance` |
| `Key.GetCallSign` | Places: `Settings` |
| `Key.KeyLength` | Cipher: `keyLenAt` |
| `Key.Groups` | Places: `Settings` |
| `Key.GroupsBlock` | KeyPage: `keyGroups`; Places: `Settings` |
| `Key.JoinKeepers` | calls `JoinRunesToString` |
| `Key.IsExpired` | Filter: `isExpired` |
| `Key.IsValidOneDay` | Filter: `isValidOneDay` |
| `Key.IsValidOneMonth` | Filter: `isValidOneMonth` |
| `Key.IsValidOneYear` | Filter: `isValidOneYear` |
| `Key.IsValid` | Filter: `isValid` |
| `Key.UsedString` | Summary: `yesNo` |
| `Key.UsedOrNotString` | Summary: `yesNo` |
| `Key.CompromisedString` | Summary: `yesNo` |
| `Key.IdString` | conversion of a field |
| `Key.CommentString` | conversion of a field |
| `Krypto431.SummaryOfKeys` | Summary: `headerOf`, `keyLine`, `summaryOfKeys` |

### krypto431.go

| function | model |
|---|---|
| `newChunk` | Traces: `newChunkWork` |
| `Wipe` | Traces: `Work.wipe` |
| `RandomWipe` | Traces: `Work.wipe` |
| `ZeroWipe` | Traces: `Work.wipe` |
| `WipeBytes` | Heap: `wipeBytes`; Krypto: `wipeBytes`; Persist: `wipeThrough` |
| `RandomWipeBytes` | Heap: `wipeBytes`; Krypto: `wipeBytes`; Persist: `wipeThrough` |
| `ZeroWipeBytes` | Heap: `wipeBytes` |
| `Key.Wipe` | Heap: `keyTargets` |
| `Key.RandomWipe` | Heap: `wipeTarget`; Keys: `wipeKey` |
| `Key.ZeroWipe` | Heap: `wipeTarget` |
| `Message.Wipe` | Heap: `msgTargets` |
| `Message.RandomWipe` | Heap: `msgTargets`; Messages: `wipeMessage` |
| `Message.ZeroWipe` | Heap: `msgTargets` |
| `chunk.Wipe` | `Traces` (the arrays), `Heap` (wiping) |
| `chunk.RandomWipe` | as `chunk.Wipe` |
| `chunk.ZeroWipe` | as `chunk.Wipe` |
| `New` | Krypto: `newBase`, `new`; Places: `World.new` |
| `WithPFK` | Krypto: `withPFK`; Persist: `Opt.apply` |
| `WithPFKString` | Krypto: `withPFKString`; Persist: `Opt.apply` |
| `WithSalt` | Krypto: `withSalt`; Persist: `Opt.apply` |
| `WithSaltString` | Krypto: `withSaltString`; Persist: `Opt.apply` |
| `WithCallSign` | Krypto: `withCallSign`; Persist: `Opt.apply` |
| `WithMutex` | Persist: `Opt.apply` |
| `WithGroupSize` | Krypto: `withGroupSize`; Persist: `Opt.apply` |
| `WithKeyLength` | Krypto: `withGroupSize`; Persist: `Opt.apply` |
| `WithColumns` | Krypto: `withGroupSize`; Persist: `Opt.apply` |
| `WithKeyColumns` | Krypto: `withGroupSize`; Persist: `Opt.apply` |
| `WithPersistence` | Krypto: `withPersistence`; Persist: `Opt.apply` |
| `WithOverwritePersistenceIfExists` | Krypto: `withOverwrite`; Persist: `Opt.apply` |
| `WithInteractive` | Krypto: `withInteractive`; Persist: `Opt.apply` |
| `WithOverwriteExistingKeysOnImport` | Krypto: `withOverwriteKeys`; Persist: `Opt.apply` |
| `Krypto431.Assert` | Krypto: `assertSettings`; SpecCmd: `SettingsOk`; Store: `Inst` |
| `Krypto431.SetInteractive` | field assignment |
| `Krypto431.SetOverwriteExistingKeysOnImport` | field assignment |
| `Krypto431.IsInteractive` | field access |
| `Krypto431.IsOverwriteExistingKeysOnImport` | field access |
| `Krypto431.SetCallSign` | Krypto: `setCallSign`; Places: `World.configure` |
| `Krypto431.GetCallSign` | field access |
| `Krypto431.CallSignString` | conversion of a field |
| `Krypto431.Close` | Heap: `wipe` |
| `Krypto431.Wipe` | Heap: `wipe`; Keys: `importKeys`; Persist: `wipeInstance`; Places: `World.wipe` |

### messages.go

| function | model |
|---|---|
| `Message.GoString` | GoString: `Msg.goString` |
| `Krypto431.NewTextMessage` | Messages: `newTextMessage`; Places: `World.newMessage`; SpecHistory: `handed` |
| `Krypto431.PromptNewTextMessage` | Cli: `outKind`, `messagesNew` |
| `Krypto431.NewTextMessageFromReader` | Cli: `outKind` |
| `Krypto431.ParseRadiogram` | Messages: `newTextMessage`; Places: `World.newMessage`; Radiogram: `firstMatch`, `parseRadiogram` |
| `Krypto431.ContainsMessageId` | Messages: `containsMessageIdLoop`, `containsMessageId` |
| `Message.ContainsRecipient` | Keys: `containsNames` |
| `Krypto431.NewUniqueMessageId` | Messages: `uniqueIdLoop`, `newUniqueMessageId` |
| `Message.AddRecipient` | Messages: `addRecipient` |
| `Message.RemoveRecipient` | Keys: `firstIdx`, `swapRemove`; Messages: `removeRecipient` |
| `Krypto431.DeleteMessage` | Keys: `firstIdx`, `swapRemove`; Messages: `deleteMessageOnce`, `deleteMessage`; Places: `Bank.remove`, `World.deleteMessage` |
| `Krypto431.DeleteMessageByString` | Messages: `deleteMessageByString` |
| `Krypto431.DeleteMessagesBySummaryString` | Summary: `deleteMessagesBySummary` |
| `Message.IdString` | conversion of a field |
| `Message.Groups` | Places: `Settings`; Traffic: `keyAndGroups` |
| `Message.GroupsBlock` | Places: `Settings` |
| `Message.JoinRecipients` | calls `JoinRunesToString` |
| `Message.GetInstance` | field access |
| `Message.SetInstance` | Places: `World.setMsgInstance` |
| `Message.IsMyCall` | Messages: `isMyCall`; Places: `Settings` |
| `Message.QRZ` | Places: `Settings` |
| `Message.QRZString` | Places: `Settings` |
| `Krypto431.SummaryOfMessages` | Summary: `headerOf`, `msgLine`, `scanMessages`, `summaryOfMessages` |

### persistence.go

| function | model |
|---|---|
| `Krypto431.DerivePFKFromPassword` | Krypto: `derivePFK` |
| `Krypto431.DerivePFKFromPasswordWithValidation` | Krypto: `derivePFK` |
| `Krypto431.GetPFK` | field access |
| `Krypto431.GetSalt` | field access |
| `Krypto431.GetPFKString` | Krypto: `getPFKString` |
| `Krypto431.GetSaltString` | Krypto: `getSaltString` |
| `Krypto431.GetPersistence` | field access |
| `Krypto431.SetPersistence` | Krypto: `withPersistence` |
| `Krypto431.SetSaltFromString` | Krypto: `setSaltFromString` |
| `Krypto431.SetPFKFromString` | Krypto: `setPFKFromString` |
| `Krypto431.SetPFKFromPassword` | Krypto: `setPFKFromPassword` |
| `AskForPassword` | AskOld: `oldAskLoop`; Krypto: `askForPassword`; Prompt: `Handler`, `Prompt`, `mainStep`, `handlerStep`, `promptStart` |
| `AskAndConfirmPassword` | Krypto: `askConfirmLoop`, `askAndConfirm` |
| `OldAskAndConfirmPassword` | AskOld: `oldAskLoop`, `oldAskAndConfirm` |
| `GenerateSalt` | Krypto: `generateHex32` |
| `GeneratePFK` | Krypto: `generateHex32` |
| `Krypto431.Save` | Persist: `gobInst`, `Codec`, `resolvePath`, `saveWrite`, `saveKey`, `save` |
| `Krypto431.Load` | Persist: `gobDecode`, `Codec`, `resolvePath`, `loadRead`, `load`; Places: `Bank.fill`, `World.load` |
| `Krypto431.ExportKeys` | Heap: `exportKeys`; Persist: `exportKeys`; Places: `exportLoop`, `World.export` |
| `Krypto431.ImportKeys` | Keys: `ImportOpts`, `importedKey`, `importLoop`, `importKeys`; Persist: `newIncoming`, `importFrom`; Places: `World.addKey`; Store: `Key` |

### print.go

| function | model |
|---|---|
| `Key.String` | KeyPage: `Page.blank`, `Page.put`, `Page.rule`, `widest`, `Page.putRight`, `keyGroups`, `keyHeader`, `groupsSpacing`, `pageCols`, `pageRows`, `keyPage` |
| `Message.String` | Traffic: `PrintEnv`, `keyAndGroups`, `trafficLine`, `messageString` |
| `Krypto431.KeysAsText` | Traffic: `textLoop`, `itemsAsText` |
| `Krypto431.MessagesAsText` | Traffic: `textLoop`, `itemsAsText` |
| `Krypto431.KeysTextFile` | Cli: `writeOutput`, `outputStep` |
| `Krypto431.MessagesTextFile` | Cli: `writeOutput`, `outputStep` |
| `Krypto431.KeysPDF` | Cli: `outputStep`; Print: `pagesLoop`, `keysPDF` |
| `Krypto431.MessagesPDF` | Cli: `outputStep`; Print: `pagesLoop`, `messagesPDF` |
