{
 "claims": [
  {
   "property": "C01",
   "status": "proved",
   "theorems": [
    "K431.C01_trigraph_reciprocal"
   ],
   "note": ""
  },
  {
   "property": "C02",
   "status": "proved",
   "theorems": [
    "K431.C02_trigraph_rejects"
   ],
   "note": ""
  },
  {
   "property": "C03",
   "status": "proved",
   "theorems": [
    "K431.C03_printed_table"
   ],
   "note": "Kernel decision over the complete finite table of the shipped text file."
  },
  {
   "property": "C04",
   "status": "proved",
   "theorems": [
    "K431.C04_perfect_secrecy",
    "K431.C04_uniform"
   ],
   "note": ""
  },
  {
   "property": "C05",
   "status": "proved",
   "theorems": [
    "K431.C05_zero_key"
   ],
   "note": ""
  },
  {
   "property": "C06",
   "status": "partial",
   "theorems": [
    "K431.C06_violated",
    "K431.C06_violated_refused",
    "K431.C06_append_partial"
   ],
   "note": "The code violates the property: the bounds check looks at the length of the output, not of the key. Witnesses of a panic and of a refused valid index; the partial theorem says what holds."
  },
  {
   "property": "C07",
   "status": "proved",
   "theorems": [
    "K431.C07_coding_round_trip",
    "K431.unicode15_lawful"
   ],
   "note": "What is assumed about package unicode is proved of the Unicode 15.0 tables (unicode15_lawful)."
  },
  {
   "property": "C08",
   "status": "proved",
   "theorems": [
    "K431.C08_coded_letters"
   ],
   "note": ""
  },
  {
   "property": "C09",
   "status": "partial",
   "theorems": [
    "K431.C09_violated",
    "K431.C09_violated_panic",
    "K431.C09_partial"
   ],
   "note": "The code violates the property: U+0131 and U+017F are altered, other unsupported characters panic."
  },
  {
   "property": "C10",
   "status": "proved",
   "theorems": [
    "K431.C10_round_trip_general",
    "K431.C10_round_trip"
   ],
   "note": "For texts over the coding legend; C10_round_trip_general also covers the two extra runes that are altered (C09)."
  },
  {
   "property": "C100",
   "status": "partial",
   "theorems": [
    "K431.C100_partial",
    "K431.C100_violated"
   ],
   "note": "The code violates the property: nothing locks the file, and two runs that have both loaded it choose the same key. Proved for runs that do not overlap."
  },
  {
   "property": "C101",
   "status": "proved",
   "theorems": [
    "K431.C101"
   ],
   "note": ""
  },
  {
   "property": "C102",
   "status": "partial",
   "theorems": [
    "K431.C102_partial",
    "K431.C102_violated"
   ],
   "note": "The code violates the property: a text that begins with a short word and an equal sign loses the word, and a DE word in the text changes sender and recipients. Proved for all other texts."
  },
  {
   "property": "C103",
   "status": "partial",
   "theorems": [
    "K431.C103_partial",
    "K431.C103_blind",
    "K431.C103_violated"
   ],
   "note": "The code violates the property: the date of a key is never looked at (C103_blind). Proved if expired keys are marked used."
  },
  {
   "property": "C104",
   "status": "proved",
   "theorems": [
    "K431.C104_decipher",
    "K431.C104_try"
   ],
   "note": ""
  },
  {
   "property": "C105",
   "status": "partial",
   "theorems": [
    "K431.C105_partial",
    "K431.C105_read",
    "K431.C105_violated"
   ],
   "note": "The code violates the property: the file is not locked, so a run that overlaps another one writes the file without what the other has added. Proved if runs do not overlap, and for all that was in the file when the runs under way read it."
  },
  {
   "property": "C106",
   "status": "partial",
   "theorems": [
    "K431.Mem.C106_violated",
    "K431.Mem.C106_partial",
    "K431.Mem.C106_left"
   ],
   "note": "The code violates the property: Wipe leaves the radiogram alone, and the plaintext of every outgoing message is a part of it (C106_left). Everything else is erased, and all of it if there is no radiogram (C106_partial)."
  },
  {
   "property": "C107",
   "status": "partial",
   "theorems": [
    "K431.C107_tables",
    "K431.C107_partial",
    "K431.C107_reading",
    "K431.C107_fill",
    "K431.C107_addition",
    "K431.C107_violated"
   ],
   "note": "The documentation contradicts the program: the procedure by addition, described first, does not agree with it in a single letter (C107_addition). Both tables, exchanging letters, and filling up with Z agree (C107_partial, C107_fill)."
  },
  {
   "property": "C108",
   "status": "partial",
   "theorems": [
    "K431.C108_partial",
    "K431.C108_dead",
    "K431.C108_violated"
   ],
   "note": "The code violates the property: Assert accepts a key length that does not exceed the group size, and then nothing can be enciphered, however many keys there are (C108_dead). Proved if the group size is less than the key length."
  },
  {
   "property": "C109",
   "status": "partial",
   "theorems": [
    "K431.C109_partial",
    "K431.C109_forge",
    "K431.C109_cut",
    "K431.C109_violated"
   ],
   "note": "The code violates the property: nothing in a ciphertext is checked. Without the key, but knowing the text, one can make a ciphertext that is read as any other text of the same length, whatever the pad is (C109_forge); a ciphertext cut short is read without an error (C109_cut). Proved: what stands before the alteration is read as it was sent."
  },
  {
   "property": "C11",
   "status": "proved",
   "theorems": [
    "K431.C11_receive",
    "K431.C11_receive_printed"
   ],
   "note": ""
  },
  {
   "property": "C110",
   "status": "partial",
   "theorems": [
    "K431.C110_partial",
    "K431.C110_partial_messages",
    "K431.C110_violated",
    "K431.C110_flags",
    "K431.C110_letters",
    "K431.C110_text"
   ],
   "note": "The code violates the property: the diagnostic form of a message does not show its id, so messages that differ in nothing else look the same. Proved for keys, and for messages up to the id. Besides: the form contains the letters of the key and the text of the message (C110_letters, C110_text), so it is not fit for logs."
  },
  {
   "property": "C111",
   "status": "partial",
   "theorems": [
    "K431.C111_partial",
    "K431.C111_reveals",
    "K431.C111_over",
    "K431.C111_violated"
   ],
   "note": "The code violates the property: a key named by the operator is not marked as used, so that two messages can take the same letters. Then whoever knows one text reads the other without any pad, as far as the known text reaches (C111_reveals, also for two stations that use the same key, see C71). Proved, for any number of known messages, if the program chooses the keys."
  },
  {
   "property": "C112",
   "status": "partial",
   "theorems": [
    "K431.Dice.C112_partial",
    "K431.Dice.C112_violated",
    "K431.Dice.C112_bias",
    "K431.Dice.C112_threefold"
   ],
   "note": "The documentation violates the property if it is followed to the letter: after a 5 one is to re-roll until 1 or 2 comes up, and then the letters Y and Z come up about three times as often as others (C112_bias, C112_threefold). Proved if both throws are discarded."
  },
  {
   "property": "C113",
   "status": "partial",
   "theorems": [
    "K431.C113_partial",
    "K431.C113_violated"
   ],
   "note": "The code violates the property: failed calls of Encipher overwrite ids with random runes, and when two ids have become equal as strings a failing call takes the mark off the wrong key, although that has been used. Proved if the ids are pairwise different strings whenever Encipher is called; messages may name their keys."
  },
  {
   "property": "C114",
   "status": "proved",
   "theorems": [
    "K431.C114_kept"
   ],
   "note": "For every history of the modelled operations on one instance, with no condition on the messages. Sharing of key letters between instances (ExportKeys) is in C38."
  },
  {
   "property": "C115",
   "status": "partial",
   "theorems": [
    "K431.C115_partial",
    "K431.C115_own_partial",
    "K431.C115_created_partial",
    "K431.C115_violated"
   ],
   "note": "The code violates the property: a message for which Encipher chose the key shares the array of the id of that key, so deleting the key in the same session replaces the key id of the message by random runes. Proved for all other contents of every message, and for the key id too if its array is not shared, which is so for received messages and for messages whose key was named (C115_created_partial)."
  },
  {
   "property": "C116",
   "status": "partial",
   "theorems": [
    "K431.C116_partial",
    "K431.C116_lost",
    "K431.C116_violated"
   ],
   "note": "The code violates the property: Decipher empties the text before it deciphers the first letter, so a message that had a text and a damaged ciphertext loses it. Proved: nothing in the instance changes, and in the message only the text (and a missing id); the text stays if no key is found; otherwise it is exactly that of the longest readable beginning of the ciphertext, whatever it was before (C116_lost)."
  },
  {
   "property": "C117",
   "status": "partial",
   "theorems": [
    "K431.C117_partial",
    "K431.C117_order_partial",
    "K431.C117_places_partial",
    "K431.C117_violated"
   ],
   "note": "The code violates the property: deleting a key moves the last key of the store to its place, so a key that has just been imported can be taken before older ones. Proved for every history that has lost none of the older keys, whatever else has happened (C117_partial); these keys keep their places (C117_places_partial), and within a store the keys are always taken in order (C117_order_partial)."
  },
  {
   "property": "C118",
   "status": "partial",
   "theorems": [
    "K431.C118_partial",
    "K431.C118_delete_partial",
    "K431.C118_violated"
   ],
   "note": "The code violates the property: deleting a message moves the last message to its place. Proved: any number of first messages keep their places and their order as long as none of them is deleted (C118_partial), and a deletion moves the last message only (C118_delete_partial)."
  },
  {
   "property": "C119",
   "status": "partial",
   "theorems": [
    "K431.C119_partial",
    "K431.C119_keys_partial",
    "K431.C119_message_ids",
    "K431.C119_radiograms",
    "K431.C119_violated"
   ],
   "note": "The code violates the property: Assert accepts a group size of 1, with which the twenty-seventh key is never finished. Proved exactly: GenerateKeys ends with probability one if there are at least as many free ids as keys are asked for, and never returns otherwise (C119_keys_partial); keys in store and keys asked for being together at most 26^GroupSize suffices (C119_partial). Reading a radiogram ends with probability one if there are fewer than 62^4 messages (C119_radiograms)."
  },
  {
   "property": "C12",
   "status": "proved",
   "theorems": [
    "K431.C12_whole_groups"
   ],
   "note": ""
  },
  {
   "property": "C120",
   "status": "proved",
   "theorems": [
    "K431.C120_writing",
    "K431.C120_radiogram"
   ],
   "note": "Blanks are those of unicode.IsSpace; the equals sign is skipped as well. A message that could not be read keeps its text as it was written."
  },
  {
   "property": "C121",
   "status": "proved",
   "theorems": [
    "K431.C121_decipher",
    "K431.C121_received"
   ],
   "note": "For stores in which the ids are distinct and consist of letters, as generated and imported ids do (C23, C24)."
  },
  {
   "property": "C122",
   "status": "partial",
   "theorems": [
    "K431.C122_partial",
    "K431.C122_capitals_partial",
    "K431.C122_violated"
   ],
   "note": "The code violates the property: FindKey compares call-signs with regard to case, though everything else ignores it, so a message to sm0x finds no key of SM0X. Proved for order and repetitions (C122_partial), and for any two lists in capitals, as those of messages made from radiograms are (C122_capitals_partial)."
  },
  {
   "property": "C123",
   "status": "partial",
   "theorems": [
    "K431.C123_kind",
    "K431.C123_partial",
    "K431.C123_violated"
   ],
   "note": "The code violates the property: if no key or message is selected, a PDF is not written but no error is reported (for text there is an error). Proved when something is selected; C123_kind says which kind of file is written or that it is refused. The drawing of the PDF is a parameter of the model."
  },
  {
   "property": "C124",
   "status": "proved",
   "theorems": [
    "K431.C124_generate",
    "K431.C124_salt",
    "K431.C124_usable"
   ],
   "note": "PBKDF2 and the strength check are parameters; C124_usable assumes that a derived key is 32 bytes."
  },
  {
   "property": "C125",
   "status": "proved",
   "theorems": [
    "K431.C125_words",
    "K431.C125_prompts"
   ],
   "note": "For a call-sign that is not blank (a blank one ends the command at the prompt, while an empty option is ignored, C58)."
  },
  {
   "property": "C126",
   "status": "proved",
   "theorems": [
    "K431.C126_string"
   ],
   "note": "The characters are those of the type Char of Lean, i.e. the Unicode scalar values."
  },
  {
   "property": "C127",
   "status": "partial",
   "theorems": [
    "K431.C127_partial",
    "K431.C127_violated"
   ],
   "note": "The code violates the property: with --delete on an empty store (or when deleting is not confirmed) the command returns success at once, and --new, --import and --export, given as well, are not carried out. Proved without --delete, and for --delete --yes on a store that is not empty."
  },
  {
   "property": "C128",
   "status": "proved",
   "theorems": [
    "K431.C128_store",
    "K431.C128_keys",
    "K431.C128_messages"
   ],
   "note": "Two files that are the same but for the keys (messages) to be deleted are the same after deleting, byte by byte at every moment of saving, whatever random letters the wiping used; for keys the outcome is the same too. Assumes ids that differ and at least one listed id in the store; the random bytes used in encrypting are those of the environment, the same in both runs."
  },
  {
   "property": "C129",
   "status": "proved",
   "theorems": [
    "K431.C129_again"
   ],
   "note": "For imports without permission to replace (option off; the user, if asked, says no). Between the two imports anything may happen that keeps the group size and the ids of the keys."
  },
  {
   "property": "C13",
   "status": "partial",
   "theorems": [
    "K431.C13_violated",
    "K431.C13_partial",
    "K431.C13_named",
    "K431.C13_named_other"
   ],
   "note": "The code violates the property for a message given a key id: that key is not marked and can be selected again. Proved for automatic key selection. For a named key C13_named says when a letter is used twice: exactly if the program selects the named key again; this can not happen if the text takes one key or the key is not one for the recipients (C13_named_other)."
  },
  {
   "property": "C130",
   "status": "partial",
   "theorems": [
    "K431.C130_partial",
    "K431.C130_violated"
   ],
   "note": "The code violates the property: with permission to replace, an unmarked copy in the file replaces a key that is marked as used or compromised, and FindKey selects the spent pad again. Proved if nothing may be replaced, or if the copies in the file carry the marks."
  },
  {
   "property": "C131",
   "status": "partial",
   "theorems": [
    "K431.C131_partial",
    "K431.C131_violated"
   ],
   "note": "The code does not do what the help says: --valid is ignored when keys are made (they expire after 365 days unless --expire is given), and without --keepers the keys made have no keeper at all (the comment of GenerateKeys and the help of initialize call such keys anonymous, the help of keys says that they are assigned to you). Proved: the keys made are not compromised, are kept by the keepers given, and outlast any number of days below 365 or before the date given."
  },
  {
   "property": "C132",
   "status": "partial",
   "theorems": [
    "K431.C132_keys_partial",
    "K431.C132_import_partial",
    "K431.C132_messages",
    "K431.C132_pfk",
    "K431.C132_pfk_yes",
    "K431.C132_initialize",
    "K431.C132_violated"
   ],
   "note": "The code violates the property in one case: keys --import --yes at a terminal still asks whether to replace a key that is in the store already, and fails if that question fails. Proved for keys without --import, where nobody can be asked, or if no key to be imported is in the store already, and for messages, pfk and initialize; for pfk also that --yes is the same as answering every question with yes. Passwords and the text of a new message are no such questions."
  },
  {
   "property": "C133",
   "status": "partial",
   "theorems": [
    "K431.C133_keys_partial",
    "K431.C133_messages_partial",
    "K431.C133_keys_violated",
    "K431.C133_messages_violated"
   ],
   "note": "The code violates the property: with --yes, --delete minds only --id. keys (messages) --delete --all --yes deletes nothing, and keys --delete --id A,B --used --yes deletes A though it has not been used. Proved if the items are selected by their ids alone. C54 states what the code does."
  },
  {
   "property": "C134",
   "status": "proved",
   "theorems": [
    "K431.C134_keys",
    "K431.C134_messages",
    "K431.C134_pfk",
    "K431.C134_import"
   ],
   "note": "Assumes the laws of the sealing codec: opening with another key fails. initialize is not covered: asked to with --yes, it replaces a file without knowing its key, as documented. C134_import is about the file to import from."
  },
  {
   "property": "C135",
   "status": "proved",
   "theorems": [
    "K431.C135_keys",
    "K431.C135_messages"
   ],
   "note": "For files that can be loaded and without the other operations of the command (--output may be given). The ids selected are printable and no longer than a group (keys) or four characters (messages), as those made by the program are. messages --list is assumed to succeed."
  },
  {
   "property": "C136",
   "status": "proved",
   "theorems": [
    "K431.C136_keys",
    "K431.C136_keys_same",
    "K431.C136_messages",
    "K431.C136_messages_same"
   ],
   "note": "Premises of C135 for the listing. Both commands read the same file contents; the deletion can write the file (ForcedKeys, ForcedMsgs) and at least one item is listed. Key ids differ even when case is ignored, message ids differ."
  },
  {
   "property": "C137",
   "status": "proved",
   "theorems": [
    "K431.C137_keys",
    "K431.C137_messages"
   ],
   "note": "The first deletion can write the file (ForcedKeys, ForcedMsgs) and has deleted something; the second opens the file it left, with whatever faults and answers. --list and --output are not given."
  },
  {
   "property": "C138",
   "status": "proved",
   "theorems": [
    "K431.C138_changes"
   ],
   "note": "Each run opens the file with the key set by the run before, can write it completely and is agreed to (ChangesKey). Only keys of 32 bytes are meant, as the program accepts no others."
  },
  {
   "property": "C139",
   "status": "proved",
   "theorems": [
    "K431.C139_opens",
    "K431.C139_change"
   ],
   "note": "The counterpart of C134. The system lets the program read the file, and the file holds the store under the key (Stored, which C33 shows of what Save writes). The salt is the one given, of at least 32 bytes, or the default."
  },
  {
   "property": "C14",
   "status": "partial",
   "theorems": [
    "K431.C14_violated",
    "K431.C14_violated_auto",
    "K431.C14_partial",
    "K431.C14_unnamed"
   ],
   "note": "The code violates the property: a key given by id is not marked, and ids overwritten by failed calls become equal strings. Proved for all histories in which keys are selected automatically while the ids are pairwise different strings. C14_unnamed: whatever keys are named, a key that is not named is used at most once, so that only named keys can be used twice."
  },
  {
   "property": "C140",
   "status": "proved",
   "theorems": [
    "K431.C140_success"
   ],
   "note": "The writes do not fail for lack of room (C65 has what happens otherwise). Keys derived from passwords have 32 bytes, and random bytes are bytes. The settings stored are not zero."
  },
  {
   "property": "C15",
   "status": "partial",
   "theorems": [
    "K431.C15_violated",
    "K431.C15_partial",
    "K431.C15_named"
   ],
   "note": "The code violates the property for a message given a key id. Proved for automatic key selection. With a named key exactly the keys of the parts after the first are marked (C15_named)."
  },
  {
   "property": "C16",
   "status": "partial",
   "theorems": [
    "K431.C16_violated",
    "K431.C16_violated_ciphertext",
    "K431.C16_violated_mark",
    "K431.C16_partial"
   ],
   "note": "The code violates the property: the id of the selected key is overwritten with random runes because message and key share the array; ciphertext of earlier parts stays if a later key is too short."
  },
  {
   "property": "C17",
   "status": "partial",
   "theorems": [
    "K431.C17_violated",
    "K431.C17_violated_capitals",
    "K431.C17_partial",
    "K431.C17_exact",
    "K431.C17_named"
   ],
   "note": "The code violates the property, also for texts without small letters: the exhaustion test does not count the letters the next character may need. Proved for text of the first coding table, and for keys large enough for the whole text; in general the only failure is keyTooShort. C17_exact gives the outcome for every text over the legend and all keys, by counting letters: it is what laying out the text on the available pads in the order of the store yields; C17_named likewise for a message that names its key."
  },
  {
   "property": "C18",
   "status": "proved",
   "theorems": [
    "K431.C18_key_selection"
   ],
   "note": ""
  },
  {
   "property": "C19",
   "status": "partial",
   "theorems": [
    "K431.C19_violated",
    "K431.C19_partial"
   ],
   "note": "The code violates the property: automatic selection ignores the compromised flag."
  },
  {
   "property": "C20",
   "status": "proved",
   "theorems": [
    "K431.C20_decipher_marks"
   ],
   "note": ""
  },
  {
   "property": "C21",
   "status": "proved",
   "theorems": [
    "K431.C21_all_or_nothing"
   ],
   "note": ""
  },
  {
   "property": "C22",
   "status": "proved",
   "theorems": [
    "K431.C22_dry_run"
   ],
   "note": ""
  },
  {
   "property": "C23",
   "status": "proved",
   "theorems": [
    "K431.C23_unique"
   ],
   "note": ""
  },
  {
   "property": "C24",
   "status": "proved",
   "theorems": [
    "K431.C24_newKey",
    "K431.C24_generate",
    "K431.C24_returns"
   ],
   "note": "C24_returns adds: NewKey can always return while an id is free."
  },
  {
   "property": "C25",
   "status": "partial",
   "theorems": [
    "K431.C25_violated",
    "K431.C25_partial"
   ],
   "note": "The code violates the property: only the first occurrence of the own call-sign is removed. Proved if it is given at most once."
  },
  {
   "property": "C26",
   "status": "partial",
   "theorems": [
    "K431.C26_violated",
    "K431.C26_partial"
   ],
   "note": "The code violates the property: keys imported together share the array of the exporter call-sign, deleting one randomises the keepers of the others. Proved if no keeper array is shared."
  },
  {
   "property": "C27",
   "status": "partial",
   "theorems": [
    "K431.C27_violated",
    "K431.C27_partial"
   ],
   "note": "The code violates the property: deleting a message enciphered in the session overwrites the id of its key, since they share the array. Everything else is proved for stores with pairwise different message ids (C28); without sharing the full statement holds."
  },
  {
   "property": "C28",
   "status": "proved",
   "theorems": [
    "K431.C28_newId",
    "K431.C28_unique"
   ],
   "note": ""
  },
  {
   "property": "C29",
   "status": "proved",
   "theorems": [
    "K431.C29_keepers",
    "K431.C29_recipients"
   ],
   "note": ""
  },
  {
   "property": "C30",
   "status": "proved",
   "theorems": [
    "K431.C30_membership",
    "K431.C30_nil"
   ],
   "note": ""
  },
  {
   "property": "C31",
   "status": "proved",
   "theorems": [
    "K431.C31_vetting"
   ],
   "note": ""
  },
  {
   "property": "C32",
   "status": "proved",
   "theorems": [
    "K431.C32_grouping"
   ],
   "note": ""
  },
  {
   "property": "C33",
   "status": "partial",
   "theorems": [
    "K431.C33_violated",
    "K431.C33_violated_empty",
    "K431.C33_partial",
    "K431.C33_separate"
   ],
   "note": "The code violates the property: fields with zero values and empty lists are not stored and do not clear the loading instance. Proved for blank instances and positive sizes, when no write fails. Gob, gzip and the cipher are abstract with stated laws."
  },
  {
   "property": "C34",
   "status": "proved",
   "theorems": [
    "K431.C34_permission",
    "K431.C34_history"
   ],
   "note": ""
  },
  {
   "property": "C35",
   "status": "partial",
   "theorems": [
    "K431.C35_violated",
    "K431.C35_partial"
   ],
   "note": "The code violates the property: the file is truncated before anything is written. Proved: the file is as before, or unreadable, or complete; never a mixture."
  },
  {
   "property": "C36",
   "status": "proved",
   "theorems": [
    "K431.C36_wrong_key",
    "K431.C36_unchanged"
   ],
   "note": "Keys have 32 bytes (C42). The authenticity of the cipher is a stated law of the codec."
  },
  {
   "property": "C37",
   "status": "partial",
   "theorems": [
    "K431.C37_violated_wiped",
    "K431.C37_violated_exported",
    "K431.C37_partial"
   ],
   "note": "The code violates the property for wiped instances and for instances exported from one without a key: the key is an empty slice, the file is truncated and Save panics. Proved if the key is nil."
  },
  {
   "property": "C38",
   "status": "partial",
   "theorems": [
    "K431.Mem.C38_violated",
    "K431.Mem.C38_violated_keepers",
    "K431.Mem.C38_partial",
    "K431.Mem.C38_survives"
   ],
   "note": "The code violates the property: the exported keys share their arrays with the original, so wiping the exported instance destroys them in the original. Proved: the export itself, and what survives the wipe. The filter does not change the keys; options of ExportKeys are in the model of Persist.lean."
  },
  {
   "property": "C39",
   "status": "partial",
   "theorems": [
    "K431.C39_violated",
    "K431.C39_violated_keepers",
    "K431.C39_partial",
    "K431.C39_protects",
    "K431.C39_loadFails",
    "K431.C39_option"
   ],
   "note": "The code violates the property when a key is replaced: stored messages and other keys sharing an array with it are overwritten. Everything else is proved, for files with pairwise different ids; C39_protects holds for any file."
  },
  {
   "property": "C40",
   "status": "proved",
   "theorems": [
    "K431.C40_arrives",
    "K431.C40_works"
   ],
   "note": "For files written completely, ids of letters that the importing station does not have yet, and automatic key selection. A key naming the exporter in other case is not selected for the exporter, since selection compares names exactly (C18); excluded by hypothesis."
  },
  {
   "property": "C41",
   "status": "partial",
   "theorems": [
    "K431.Mem.C41_violated",
    "K431.Mem.C41_runes",
    "K431.Mem.C41_partial",
    "K431.Mem.C41_instance",
    "K431.Mem.C41_frame"
   ],
   "note": "The code violates the property only if the random source fails: then file key and salt stay. Overwritten is stated as: memory afterwards does not depend on the former contents."
  },
  {
   "property": "C42",
   "status": "proved",
   "theorems": [
    "K431.C42_pfk",
    "K431.C42_salt",
    "K431.C42_generate",
    "K431.C42_options"
   ],
   "note": ""
  },
  {
   "property": "C43",
   "status": "partial",
   "theorems": [
    "K431.C43_partial",
    "K431.C43_accepts",
    "K431.C43_violated",
    "K431.C43_ask",
    "K431.C43_old_partial",
    "K431.C43_old_violated"
   ],
   "note": "The code violates the property: the first password is not wiped when the second can not be read. Everything else is proved; also for OldAskAndConfirmPassword, which in addition leaves entries that are too short."
  },
  {
   "property": "C44",
   "status": "partial",
   "theorems": [
    "K431.C44_partial",
    "K431.C44_function",
    "K431.C44_violated"
   ],
   "note": "The code violates the property only if the random source fails: then the password stays in memory."
  },
  {
   "property": "C45",
   "status": "proved",
   "theorems": [
    "K431.C45_int63",
    "K431.C45_range",
    "K431.C45_intn",
    "K431.C45_skip",
    "K431.C45_sequence",
    "K431.C45_key",
    "K431.C45_possible",
    "K431.C45_keys",
    "K431.C45_messageId",
    "K431.C45_finite"
   ],
   "note": "Uniformity is stated by counting tapes of 64-bit words of equal length."
  },
  {
   "property": "C46",
   "status": "proved",
   "theorems": [
    "K431.C46_blocks",
    "K431.C46_program",
    "K431.C46_lock",
    "K431.C46_release",
    "K431.C46_progress"
   ],
   "note": "Interleaving semantics of the generator lock; each lock, read and unlock is one step."
  },
  {
   "property": "C47",
   "status": "partial",
   "theorems": [
    "K431.C47_violated",
    "K431.C47_sequential",
    "K431.C47_partial"
   ],
   "note": "The code violates the property: nothing is locked. Proved for any number of goroutines that enter Encipher one at a time."
  },
  {
   "property": "C48",
   "status": "proved",
   "theorems": [
    "K431.C48_new_message"
   ],
   "note": "A failing call may overwrite key id arrays shared with stored messages (C16); nothing is stored."
  },
  {
   "property": "C49",
   "status": "partial",
   "theorems": [
    "K431.C49_violated",
    "K431.C49_violated_always",
    "K431.C49_partial"
   ],
   "note": "The code violates the property: with two arguments it panics. Proved when the key id is the third argument."
  },
  {
   "property": "C50",
   "status": "partial",
   "theorems": [
    "K431.C50_violated",
    "K431.C50_partial"
   ],
   "note": "The code violates the property: tabs do not separate recipients and the Kelvin sign passes as a letter. Proved for radiograms without these characters; in general up to exactly these characters."
  },
  {
   "property": "C51",
   "status": "partial",
   "theorems": [
    "K431.C51_violated",
    "K431.C51_partial",
    "K431.C51_text_partial",
    "K431.C51_parses"
   ],
   "note": "The code violates the property: a later DE in the text takes over because the first group is greedy. Proved if the rest of the radiogram has no further DE call."
  },
  {
   "property": "C52",
   "status": "partial",
   "theorems": [
    "K431.C52_violated",
    "K431.C52_violated_id",
    "K431.C52_violated_days",
    "K431.C52_partial"
   ],
   "note": "The code violates the property: --invalid selects the valid keys, --id overrides all other filters, and the number of days overflows. Proved otherwise, and for --invalid exactly what it does."
  },
  {
   "property": "C53",
   "status": "proved",
   "theorems": [
    "K431.C53_filter"
   ],
   "note": ""
  },
  {
   "property": "C54",
   "status": "proved",
   "theorems": [
    "K431.C54_keys",
    "K431.C54_messages"
   ],
   "note": "For files whose ids differ (C23, C28); files written completely. Ids of keys are compared ignoring case."
  },
  {
   "property": "C55",
   "status": "proved",
   "theorems": [
    "K431.C55_keys",
    "K431.C55_messages"
   ],
   "note": "Ids: Unicode code points, no white space or comma, no longer than a group (messages: four characters). As in C26 and C27 contents of shared arrays may change."
  },
  {
   "property": "C56",
   "status": "partial",
   "theorems": [
    "K431.C56_violated",
    "K431.C56_violated_size",
    "K431.C56_partial",
    "K431.C56_partial_callers"
   ],
   "note": "The code violates the property: an item longer than a page is printed before its predecessors, and the rows already on the page are forgotten. Proved: every item exactly once; order and size if every item fits."
  },
  {
   "property": "C57",
   "status": "partial",
   "theorems": [
    "K431.C57_violated",
    "K431.C57_partial"
   ],
   "note": "The code violates the property: --random together with --new-pfk is not rejected. Everything else is proved."
  },
  {
   "property": "C58",
   "status": "partial",
   "theorems": [
    "K431.C58_violated",
    "K431.C58_partial",
    "K431.C58_new",
    "K431.C58_options"
   ],
   "note": "The code violates the property: the error of a too short call-sign is ignored and a store without a call-sign is saved. Proved: the settings always pass Assert, the call-sign is the given one if that has two characters, and the settings are those of the options."
  },
  {
   "property": "C59",
   "status": "proved",
   "theorems": [
    "K431.C59_periods"
   ],
   "note": ""
  },
  {
   "property": "C60",
   "status": "proved",
   "theorems": [
    "K431.C60_legend"
   ],
   "note": ""
  },
  {
   "property": "C61",
   "status": "proved",
   "theorems": [
    "K431.C61_decoding_safe"
   ],
   "note": ""
  },
  {
   "property": "C62",
   "status": "proved",
   "theorems": [
    "K431.C62_encipher_twice"
   ],
   "note": ""
  },
  {
   "property": "C63",
   "status": "proved",
   "theorems": [
    "K431.C63_try_again"
   ],
   "note": ""
  },
  {
   "property": "C64",
   "status": "partial",
   "theorems": [
    "K431.C64_violated",
    "K431.C64_partial",
    "K431.C64_fails"
   ],
   "note": "The code violates the property: with the documented options the pointers are shared and the own key and salt are wiped after the import. Proved if the options do not share them, and for every failing load."
  },
  {
   "property": "C65",
   "status": "partial",
   "theorems": [
    "K431.C65_violated",
    "K431.C65_violated_declined",
    "K431.C65_partial"
   ],
   "note": "The code violates the property: errors in the deferred Close calls are lost, and declining returns no error. Proved if no write fails, up to declining."
  },
  {
   "property": "C66",
   "status": "partial",
   "theorems": [
    "K431.C66_violated",
    "K431.C66_partial"
   ],
   "note": "The code violates the property: the permission is a flag of the instance. Proved while the instance refers to the loaded file."
  },
  {
   "property": "C67",
   "status": "proved",
   "theorems": [
    "K431.C67_rekey"
   ],
   "note": "For complete writes. That no other key opens the file is a stated law of the codec."
  },
  {
   "property": "C68",
   "status": "partial",
   "theorems": [
    "K431.C68_violated",
    "K431.C68_partial"
   ],
   "note": "The code violates the property: a date-time group with a month but without a zone letter (012345JAN23) is cut off after the first letter of the month. Proved for all other date-time groups. The library dtg is a parameter."
  },
  {
   "property": "C69",
   "status": "partial",
   "theorems": [
    "K431.C69_violated",
    "K431.C69_partial"
   ],
   "note": "The code violates the property: a count of groups with more than four digits is read as part of the text and the message is not deciphered. Proved for at most 9998 groups of ciphertext, of any size. The libraries blox and dtg are parameters that keep words whole and print times as date-time groups."
  },
  {
   "property": "C70",
   "status": "proved",
   "theorems": [
    "K431.C70_message",
    "K431.C70_list"
   ],
   "note": "The heading and the printed form of keys are drawn by the library blox and are parameters."
  },
  {
   "property": "C71",
   "status": "partial",
   "theorems": [
    "K431.C71_violated",
    "K431.C71_partial",
    "K431.C71_readable"
   ],
   "note": "The code violates the property: two stations that hold the same pad both select it if neither has read the message of the other. Proved for stations that have read, before they send, the messages of others that use pads they hold; a station that holds the pads of a message can read it."
  },
  {
   "property": "C72",
   "status": "proved",
   "theorems": [
    "K431.C72_shape",
    "K431.C72_secrecy",
    "K431.C72_texts",
    "K431.C72_tapes"
   ],
   "note": "For messages whose key is selected by the store: a message that comes with a key id does not mark its key as used (C13-C15), so the letters of that key can encipher two messages. C72_tapes relates the letters to the words of the random source (C45)."
  },
  {
   "property": "C73",
   "status": "partial",
   "theorems": [
    "K431.C73_violated",
    "K431.C73_violated_killed",
    "K431.C73_partial"
   ],
   "note": "The code violates the property: the message is printed before the file is saved; if saving fails, or the program is killed in between, the next run uses the same pad. Proved if the file is written to, however incompletely, each time a message has been printed: an incomplete file can not be opened or holds the marks. The laws of the codec are stated assumptions."
  },
  {
   "property": "C74",
   "status": "partial",
   "theorems": [
    "K431.C74_violated",
    "K431.C74_partial"
   ],
   "note": "The code violates the property: --output may name the file with the keys, which is then replaced by the printed text without a question. Proved if the output file is another file: no other file is touched. Two names of the same file (links) are not modelled."
  },
  {
   "property": "C75",
   "status": "proved",
   "theorems": [
    "K431.C75_new_keys"
   ],
   "note": "For a file that can be loaded and then written completely; the laws of the codec are stated assumptions. The own call-sign is removed from the keepers once only, as the code does (C25)."
  },
  {
   "property": "C76",
   "status": "proved",
   "theorems": [
    "K431.C76_stored",
    "K431.C76_delivered"
   ],
   "note": "For files that can be loaded and then written completely, and messages of at most 9998 groups (C69). The library that rewraps text and the one that parses dates are parameters: the words that are printed are those entered, and the printed time is parsed to some time."
  },
  {
   "property": "C77",
   "status": "proved",
   "theorems": [
    "K431.C77_import"
   ],
   "note": "For an own file that can be loaded, has distinct key ids up to case and can be written completely."
  },
  {
   "property": "C78",
   "status": "partial",
   "theorems": [
    "K431.C78_violated",
    "K431.C78_violated_key",
    "K431.C78_export",
    "K431.C78_partial"
   ],
   "note": "Violated twice: --export with --yes to the name of the own file replaces it, so all keys that are not selected and all messages are lost (C78_violated); keys --import has no option for the key or the salt of the file imported, so a file exported by a station that uses --pfk or another salt opens with no password (C78_violated_key). Within its range (another file; key derived from a password with the default salt; ids of the same length that are new to the importer) the handover is proved from command to command."
  },
  {
   "property": "C79",
   "status": "proved",
   "theorems": [
    "K431.C79_keys",
    "K431.C79_messages"
   ],
   "note": "For files that can be loaded and then written completely, with distinct ids of printable characters that are no longer than the column of the summary (group size for keys, 4 for messages: C55). For messages: provided deciphering for the summary does not panic."
  },
  {
   "property": "C80",
   "status": "proved",
   "theorems": [
    "K431.C80_order",
    "K431.C80_usable"
   ],
   "note": "Runs follow one another; two runs at the same time on the same file are not covered (C47). What --output writes is assumed not to be openable as a key file. Loading is into an instance that holds nothing yet. C80_usable shows that a store in order meets the conditions under which C73 and C75 to C79 are proved."
  },
  {
   "property": "C81",
   "status": "proved",
   "theorems": [
    "K431.C81_origin"
   ],
   "note": "Under the same conditions as C80. Together with C45 this says that the pads in the files are uniform and independent."
  },
  {
   "property": "C82",
   "status": "proved",
   "theorems": [
    "K431.C82_keys",
    "K431.C82_messages",
    "K431.C82_init",
    "K431.C82_pfk",
    "K431.C82_closed"
   ],
   "note": "The question which items to delete shows the same table as --list and is not part of the modelled output; temporary files and the memory of the process are not covered. C82_closed uses the laws of the codec."
  },
  {
   "property": "C83",
   "status": "proved",
   "theorems": [
    "K431.C83_conversation",
    "K431.C83_begin",
    "K431.C83_filter"
   ],
   "note": "Messages do not cross: each is entered at the receiving station before the other station sends (C71 shows what happens else). Keys with the same id in the two files are assumed to be copies of the same pad when keys are handed over; messages of at most 9998 groups (C69), addressed to the other station only; the files can be read and written. The libraries that wrap text and parse dates are parameters, as in C76."
  },
  {
   "property": "C84",
   "status": "proved",
   "theorems": [
    "K431.C84_made",
    "K431.C84_arrives",
    "K431.C84_order"
   ],
   "note": "The run is assumed to find a message id (the search may in principle go on for ever). C17_violated shows that four letters of capacity per character altogether do not suffice for texts that need several keys. For the second half the message has at most 9998 groups (C69), or its text is short enough for that by C85 (at most 4544 characters in groups of five)."
  },
  {
   "property": "C85",
   "status": "proved",
   "theorems": [
    "K431.C85",
    "K431.C85_keys",
    "K431.C85_exact"
   ],
   "note": "C85_exact gives the exact numbers for texts over the legend by counting. C85 also covers messages that come with a key id. C85_keys is for the others; the ids of the keys in the store can be told apart."
  },
  {
   "property": "C86",
   "status": "proved",
   "theorems": [
    "K431.C86",
    "K431.C86_unique",
    "K431.C86_by_hand"
   ],
   "note": "For messages whose key id has as many letters as a group and names a key of the store, and whose ciphertext has at least a group of letters; Decipher refuses all others."
  },
  {
   "property": "C87",
   "status": "proved",
   "theorems": [
    "K431.C87_cut",
    "K431.C87_beginning",
    "K431.C87_letter"
   ],
   "note": "A wrong letter for a control letter (switch table, case, change key) can spoil all that follows, as can a letter that is missing; the property says nothing of these."
  },
  {
   "property": "C88",
   "status": "partial",
   "theorems": [
    "K431.C88_partial",
    "K431.C88_history_partial",
    "K431.C88_violated"
   ],
   "note": "Does not hold: characters outside the legend in the text of an outgoing message make messages --new panic (C88_violated). Holds for all runs otherwise. Assumed: PBKDF2 gives 32 bytes, dtg.Parse does not panic, the random source of pfk works (GeneratePFK and GenerateSalt panic if not)."
  },
  {
   "property": "C89",
   "status": "partial",
   "theorems": [
    "K431.C89_partial",
    "K431.C89_panics",
    "K431.C89_violated",
    "K431.C89_extremes"
   ],
   "note": "Does not hold: ColumnSizes panics if and only if a row has more cells than there are headers, so always without headers. Otherwise it holds. HighestInt and LowestInt: proved."
  },
  {
   "property": "C90",
   "status": "partial",
   "theorems": [
    "K431.Place.C90_partial",
    "K431.Place.C90_load_partial",
    "K431.Place.C90_export",
    "K431.Place.C90_violated"
   ],
   "note": "Does not hold: the keys of an instance returned by ExportKeys name a local variable of that function instead (C90_violated, C90_export). Holds for every instance made by New, and for any instance after Load."
  },
  {
   "property": "C91",
   "status": "partial",
   "theorems": [
    "K431.Place.C91_partial",
    "K431.Place.C91_newKey",
    "K431.Place.C91_newMessage",
    "K431.Place.C91_violated",
    "K431.Place.C91_violated_newKey"
   ],
   "note": "Does not hold: deleting a key moves the last key to its place, and NewKey and NewTextMessage return a pointer to a copy. C91_partial says which steps a pointer from GetKey survives; C91_newKey and C91_newMessage that assignments through the pointers to copies never reach a store."
  },
  {
   "property": "C92",
   "status": "partial",
   "theorems": [
    "K431.C92_keys",
    "K431.C92_partial",
    "K431.C92_violated"
   ],
   "note": "Keys: proved (ids no longer than a group of two letters or more, dates of at most 12 characters, at least one key selected). Messages: does not hold for a message without sender if no sender has three characters; NIL and the digest run together (C92_violated)."
  },
  {
   "property": "C93",
   "status": "partial",
   "theorems": [
    "K431.C93_partial",
    "K431.C93_left",
    "K431.C93_violated"
   ],
   "note": "Does not hold: a successful Encipher wipes nothing, and the arrays it leaves reveal the text and, with the ciphertext, the pad (C93_left, C93_violated). Holds if Encipher fails, for keys of at most 697 letters."
  },
  {
   "property": "C94",
   "status": "partial",
   "theorems": [
    "K431.C94_partial",
    "K431.C94_left",
    "K431.C94_violated"
   ],
   "note": "Does not hold: PlainText grows from nil, and Wipe overwrites only the last array (C94_left: the others are beginnings of the text). Holds for the last array, and entirely for texts that fit into the first one."
  },
  {
   "property": "C95",
   "status": "proved",
   "theorems": [
    "K431.C95_get",
    "K431.C95_mark",
    "K431.C95_spelling",
    "K431.C95_unreachable"
   ],
   "note": "Ids with small letters, which only a foreign file can bring, are not found at all (C95_unreachable)."
  },
  {
   "property": "C96",
   "status": "proved",
   "theorems": [
    "K431.C96_file",
    "K431.C96_again",
    "K431.C96_from_nothing"
   ],
   "note": "One of the two stations may also let initialize make keys, if it hands them over before the first message."
  },
  {
   "property": "C97",
   "status": "proved",
   "theorems": [
    "K431.C97_page",
    "K431.C97_head",
    "K431.C97_spread"
   ],
   "note": "Relies on the stated behaviour of the drawing library blox, whose source is not at hand; removal of blanks at line ends is not modelled."
  },
  {
   "property": "C98",
   "status": "partial",
   "theorems": [
    "K431.C98_partial",
    "K431.C98_at_once",
    "K431.C98_ends",
    "K431.C98_gone",
    "K431.C98_returns",
    "K431.C98_violated"
   ],
   "note": "The code violates the property in one order of events: echo can be switched off again between the restoring of the terminal by the goroutine and the end of the program. Everything else is proved."
  },
  {
   "property": "C99",
   "status": "proved",
   "theorems": [
    "K431.C99_keys",
    "K431.C99_traffic"
   ],
   "note": ""
  }
 ]
}