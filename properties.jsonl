{"id": "C01", "title": "DIANA trigraph is reciprocal, symmetric and closed on A-Z", "statement": "For any two letters x, y in A..Z, TrigraphRune succeeds and writes a letter z in A..Z such that TrigraphRune(y,x)=z, TrigraphRune(x,z)=y and TrigraphRune(z,y)=x; numerically the three letter positions sum to 25 modulo 26. TrigraphByte gives the same letter.", "quantifier": "every pair of letters", "why_tests_cant": "the shipped test samples 11 triples; the claim is about the whole table and about its algebra", "anchors": ["diana/diana.go: TrigraphByte, TrigraphRune"]}
{"id": "C02", "title": "Trigraph rejects bad input without writing", "statement": "If any pointer is nil or either input is outside A..Z, TrigraphRune/TrigraphByte return an error and the destination keeps its previous value; conversely they never fail on non-nil A..Z input.", "quantifier": "every rune/byte value and every nil pattern", "why_tests_cant": "the input space is all int32 pairs", "anchors": ["diana/diana.go: TrigraphByte, TrigraphRune"]}
{"id": "C03", "title": "The printed reciprocal table is the algorithm", "statement": "Every cell of the shipped reciprocal-table.txt (row letter, column letter) carries exactly the letter that TrigraphRune computes, so pen-and-paper and program agree.", "quantifier": "all 26x26 cells of the printed table", "why_tests_cant": "no test reads the embedded table; a single misprinted cell breaks interoperability of hand ciphering", "anchors": ["diana/reciprocal-table.txt", "diana/diana.go: TrigraphRune, ReciprocalTable"]}
{"id": "C04", "title": "One-time-pad perfect secrecy of a chunk", "statement": "For any encoded text and any A..Z ciphertext of the same length there is exactly one A..Z key of that length enciphering the text to that ciphertext; hence with a uniformly random key every ciphertext is equally likely whatever the text.", "quantifier": "all texts, ciphertexts and keys of every length", "why_tests_cant": "a statement about all keys of every length (26^n of them)", "anchors": ["cipher.go: Message.Encipher (cipher loop)", "diana/diana.go: TrigraphRune"]}
{"id": "C05", "title": "Zero key leaves a letter unchanged", "statement": "For each letter c, ZeroKeyRune/ZeroKeyByte returns a key letter k such that enciphering c with k gives c, and k is the only such letter.", "quantifier": "all letters", "why_tests_cant": "tests sample one word", "anchors": ["diana/diana.go: ZeroKeyByte, ZeroKeyRune"]}
{"id": "C06", "title": "AppendTrigraphByteByKey is safe for every index", "statement": "AppendTrigraphByteByKey never panics: an index that is negative or outside the key yields an error and leaves the output and the index unchanged; a valid index appends exactly one letter and advances the index by one.", "quantifier": "all outputs, keys and indices", "why_tests_cant": "the failing region (index beyond the key but not beyond the output) is not in the test table", "anchors": ["diana/diana.go: AppendTrigraphByteByKey"]}
{"id": "C07", "title": "Coding round trip on the supported alphabet", "statement": "For every text over the printed coding legend (A-Z, a-z, 0-9, space, ? - . , : + / and upper and lower case A-ring, A-umlaut, O-umlaut), in any mixture of cases and tables, coding it and decoding the coded letters gives back exactly the same text.", "quantifier": "all texts of all lengths over the alphabet", "why_tests_cant": "the coder is a state machine (table, case lock); every interleaving of case and table switches matters", "anchors": ["cipher.go: codecState.encodeCharacter, codecState.decodeCharacter, CharacterTables"]}
{"id": "C08", "title": "Coded text consists of letters only and is never empty", "statement": "Coding a supported text produces only A..Z, at least one and at most four letters per input character, so it can always be enciphered with the trigraph.", "quantifier": "all texts over the alphabet, all coder states", "why_tests_cant": "depends on coder state reached by arbitrary prefixes", "anchors": ["cipher.go: codecState.encodeCharacter, gotoTable, toggleCase"]}
{"id": "C09", "title": "A message is never silently altered", "statement": "If Encipher reports success, the text a holder of the keys recovers is the text that was entered; text that can not be represented is refused with an error (never a panic, never a changed character).", "quantifier": "all plaintexts over all runes", "why_tests_cant": "the set of runes that upper-case into the table is not enumerated by tests", "anchors": ["cipher.go: codecState.encodeCharacter, Message.Encipher"]}
{"id": "C10", "title": "Encipher then Decipher recovers the plaintext across key changes", "statement": "If Encipher succeeds on a message whose text consists of characters of the coding legend, then a station whose key store resolves the ids of the used keys to the same key letters deciphers the message's KeyId and CipherText to the same PlainText, however many key changes the message contains.", "quantifier": "all plaintexts over the coding legend, key stores (sender and receiver), group sizes, recipients and key lengths", "why_tests_cant": "unbounded number of chunks and key stores; boundary alignment of key changes", "anchors": ["cipher.go: Message.Encipher, Message.Decipher, codecState.changeKey, codecState.pad"]}
{"id": "C11", "title": "What is transmitted can be received", "statement": "For every successfully enciphered message, entering the transmitted form (key id followed by the ciphertext in space- or line-separated groups) as the text of an incoming message makes TryDecipherPlainText succeed, and sets KeyId, CipherText and PlainText to the sender's values.", "quantifier": "all messages, column widths, group sizes and receiving stores holding the keys", "why_tests_cant": "composition of grouping, filtering, key lookup and multi-key deciphering", "anchors": ["cipher.go: Message.TryDecipherPlainText, Message.Decipher", "functions.go: groups", "messages.go: Message.Groups, Message.GroupsBlock"]}
{"id": "C12", "title": "Ciphertext is whole groups of letters", "statement": "After a successful Encipher, CipherText is a non-empty sequence of letters A..Z whose length is a multiple of the group size, and KeyId is exactly one group long.", "quantifier": "all messages, key stores and group sizes >= 1", "why_tests_cant": "padding depends on the sum of all chunk lengths", "anchors": ["cipher.go: Message.Encipher, codecState.pad"]}
{"id": "C13", "title": "No key letter is used twice inside a message", "statement": "In a successful Encipher every chunk is enciphered with a different key and is no longer than that key, so no key letter enciphers two positions.", "quantifier": "all messages and key stores", "why_tests_cant": "multi-chunk messages over arbitrary stores", "anchors": ["cipher.go: Message.Encipher, Krypto431.FindKey"]}
{"id": "C14", "title": "A key is used for at most one message (one-time use)", "statement": "In any history of operations on an instance in which nobody explicitly un-marks a key, no key enciphers two chunks of the same or of different messages.", "quantifier": "all histories of Encipher, Decipher, key generation and deletion, successes and failures", "why_tests_cant": "a property of whole histories, including failed calls", "anchors": ["cipher.go: Message.Encipher, Message.EnrichWithKey, Krypto431.FindKey, Krypto431.GetKey"]}
{"id": "C15", "title": "Keys used by a successful Encipher are marked used", "statement": "After Encipher succeeds, each key used for any chunk has Used == true; all other keys keep their flag.", "quantifier": "all messages and key stores, key chosen automatically or given", "why_tests_cant": "multi-chunk, arbitrary stores", "anchors": ["cipher.go: Message.Encipher, Message.EnrichWithKey"]}
{"id": "C16", "title": "A failed Encipher gives everything back", "statement": "If Encipher fails (error or panic), all keys in the store are as before (same ids, same letters, same Used flags), no message in the store changes, the plaintext is unchanged and no ciphertext is left in the message.", "quantifier": "all messages, key stores and failure points", "why_tests_cant": "failure points range over every position in the message; the defect is slice aliasing", "anchors": ["cipher.go: Message.Encipher (deferred release), Message.EnrichWithKey", "krypto431.go: Wipe"]}
{"id": "C17", "title": "Encipher succeeds whenever enough keys are available", "statement": "If every plaintext character is supported and enough unused keys of sufficient length kept by all recipients are in the store, Encipher succeeds.", "quantifier": "all plaintexts, key lengths and group sizes", "why_tests_cant": "failure depends on the alignment of case and table changes with the key boundary", "anchors": ["cipher.go: Message.Encipher, ControlCharactersNeededToChangeKey"]}
{"id": "C18", "title": "Key selection is exact", "statement": "FindKey returns the first key that is unused, has an id of the configured group size and is kept by all recipients (or has no keepers when there are no recipients); it returns nil exactly when there is none, and it changes nothing.", "quantifier": "all key stores and recipient lists", "why_tests_cant": "quantifies over all stores", "anchors": ["cipher.go: Krypto431.FindKey", "functions.go: AllNeedlesInHaystack"]}
{"id": "C19", "title": "Compromised keys never encipher", "statement": "No successful Encipher uses a key marked compromised for any chunk.", "quantifier": "all messages and key stores", "why_tests_cant": "automatic selection ranges over arbitrary stores", "anchors": ["cipher.go: Krypto431.FindKey, Message.EnrichWithKey"]}
{"id": "C20", "title": "Decipher marks exactly the keys it used, and only on success", "statement": "If Decipher succeeds, the key named by KeyId and every key changed to inside the message are marked used and no other flag changes; if it fails no flag changes. KeyId, CipherText and all key letters never change, and Decipher never panics.", "quantifier": "all ciphertexts (including garbage) and key stores", "why_tests_cant": "ciphertext is adversarial input", "anchors": ["cipher.go: Message.Decipher"]}
{"id": "C21", "title": "TryDecipherPlainText is all-or-nothing", "statement": "If TryDecipherPlainText returns an error, the message's KeyId, PlainText and CipherText and the whole key store are as before the call.", "quantifier": "all messages and key stores", "why_tests_cant": "the failure may happen at any letter of an arbitrary text", "anchors": ["cipher.go: Message.TryDecipherPlainText"]}
{"id": "C22", "title": "Dry run never changes anything", "statement": "TryDecipherPlainText(true) leaves KeyId, PlainText, CipherText and the key store unchanged, and returns nil only if the text is letters, blanks and '=' with at least two groups, the first of which names a key in the store.", "quantifier": "all messages and key stores", "why_tests_cant": "all texts over all runes", "anchors": ["cipher.go: Message.TryDecipherPlainText"]}
{"id": "C23", "title": "Key ids stay unique", "statement": "Starting from a store whose key ids are pairwise different (ignoring case), any sequence of NewKey/GenerateKeys, DeleteKey and ImportKeys operations leaves them pairwise different.", "quantifier": "all operation sequences, all random draws, all imported files", "why_tests_cant": "a history property over random draws", "anchors": ["keys.go: Krypto431.NewKey, GenerateKeys, DeleteKey, ContainsKeyId", "persistence.go: ImportKeys"]}
{"id": "C24", "title": "Generated keys have the right shape", "statement": "NewKey appends exactly one key; its id is one group of letters A..Z not yet in the store, its key letters are A..Z, their number is the configured key length rounded up to whole groups, and it is neither used nor compromised; GenerateKeys(n) appends exactly n such keys and leaves the existing ones unchanged.", "quantifier": "all instances, settings and random draws", "why_tests_cant": "random draws and arbitrary settings", "anchors": ["keys.go: Krypto431.NewKey, GenerateKeys"]}
{"id": "C25", "title": "You are never a keeper of your own generated keys", "statement": "After NewKey the instance's own call-sign is not (in any case variant) among the keepers of the new key.", "quantifier": "all keeper arguments and call-signs", "why_tests_cant": "all keeper strings, including repetitions", "anchors": ["keys.go: Krypto431.NewKey, Key.RemoveKeeper"]}
{"id": "C26", "title": "DeleteKey deletes exactly what is asked", "statement": "With pairwise different ids, DeleteKey(ids...) removes exactly the keys whose id matches (ignoring case) one of the given ids, returns the number removed, and leaves all other keys unchanged (order may change).", "quantifier": "all stores and id lists", "why_tests_cant": "swap-with-last deletion over arbitrary lists", "anchors": ["keys.go: Krypto431.DeleteKey, DeleteKeyByString"]}
{"id": "C27", "title": "Deleting a message touches nothing else", "statement": "DeleteMessage removes exactly the messages whose id matches (case-sensitively), returns their number, and changes no key and no other message.", "quantifier": "all stores and id lists, including messages enciphered in this session", "why_tests_cant": "the interaction with keys is through shared memory, visible only in some histories", "anchors": ["messages.go: Krypto431.DeleteMessage", "krypto431.go: Message.RandomWipe", "cipher.go: EnrichWithKey"]}
{"id": "C28", "title": "Message ids are unique", "statement": "NewUniqueMessageId returns four alphanumeric characters that are not the id of any stored message; in every history of message creation and deletion all stored message ids stay pairwise different.", "quantifier": "all histories and random draws", "why_tests_cant": "random draws, arbitrary histories", "anchors": ["messages.go: Krypto431.NewUniqueMessageId, ContainsMessageId, NewTextMessage"]}
{"id": "C29", "title": "Keeper and recipient lists behave like case-insensitive sets", "statement": "After AddKeeper(x) the key contains x; adding a present keeper changes nothing; RemoveKeeper(x) on a list without repetitions removes exactly x and keeps all others; the same for AddRecipient/RemoveRecipient.", "quantifier": "all lists and call-signs", "why_tests_cant": "swap-with-last removal, Unicode case folding", "anchors": ["keys.go: AddKeeper, RemoveKeeper, ContainsKeeper", "messages.go: AddRecipient, RemoveRecipient, ContainsRecipient"]}
{"id": "C30", "title": "Membership helpers mean what they say", "statement": "EqualRunes is equality; EqualRunesFold is an equivalence relation that contains equality; AllNeedlesInHaystack is true exactly if there is at least one needle and every needle is in the haystack; AnyNeedleInHaystack exactly if some needle is; AnyOfThem exactly if the non-empty needle is in the haystack.", "quantifier": "all slices, including nil pointers", "why_tests_cant": "quantifies over all lists", "anchors": ["functions.go: EqualRunes, EqualRunesFold, AllNeedlesInHaystack, AnyNeedleInHaystack, AnyOfThem"]}
{"id": "C31", "title": "Vetting call-signs gives a normal form", "statement": "VettedKeepers returns only non-empty, upper-case entries without commas, spaces or surrounding white space; vetting the comma- or space-joined result again gives the same list; splitting arguments differently makes no difference.", "quantifier": "all argument lists and strings", "why_tests_cant": "all strings", "anchors": ["functions.go: VettedKeepers, VettedMessageIds, JoinRunesToString"]}
{"id": "C32", "title": "Grouping is lossless and respects the line width", "statement": "For group size >= 1, groups() returns the input unchanged except for separators: removing separators gives the input, every group but the last has exactly the group size, and with columns > 0 no line is longer than the column width (if the group size fits).", "quantifier": "all inputs, group sizes and column widths", "why_tests_cant": "all lengths and widths", "anchors": ["functions.go: groups", "keys.go: Key.Groups, Key.GroupsBlock", "messages.go: Message.Groups, Message.GroupsBlock"]}
{"id": "C33", "title": "Load gives back what Save stored", "statement": "After Save and then Load with the same key, the loading instance has exactly the saved settings, call-sign, keys and messages.", "quantifier": "all instances saved; all instances loaded into", "why_tests_cant": "the format omits zero values and merges into the receiver, so it depends on prior contents of the receiver", "anchors": ["persistence.go: Krypto431.Save, Krypto431.Load", "krypto431.go: New"]}
{"id": "C34", "title": "Save never overwrites without permission", "statement": "If the persistence file exists, Save changes it only if overwriting was enabled (by option or a previous successful Load) or the user confirmed; in every other case the file is untouched.", "quantifier": "all instances, file-system states and user answers", "why_tests_cant": "decision over the whole configuration space", "anchors": ["persistence.go: Krypto431.Save, Krypto431.Load"]}
{"id": "C35", "title": "A crash during Save does not lose the stored keys", "statement": "If the program dies at any point of Save, the persistence file still holds either the complete old or the complete new state.", "quantifier": "all crash points", "why_tests_cant": "tests do not crash between system calls", "anchors": ["persistence.go: Krypto431.Save"]}
{"id": "C36", "title": "Only the right key opens the file", "statement": "Load with a different persistence file key than the one used by Save fails with an error and leaves keys, messages and settings of the instance unchanged.", "quantifier": "all pairs of keys and all stores", "why_tests_cant": "quantifies over keys; relies on the authenticated stream", "anchors": ["persistence.go: Krypto431.Load, Krypto431.Save"]}
{"id": "C37", "title": "Save without a key never damages the file", "statement": "If the instance has no usable persistence file key and can not ask for one, Save returns an error and does not touch the file.", "quantifier": "all instances, including wiped and exported ones", "why_tests_cant": "depends on the history of the instance", "anchors": ["persistence.go: Krypto431.Save, ExportKeys", "krypto431.go: Krypto431.Wipe"]}
{"id": "C38", "title": "Export copies exactly the selected keys", "statement": "ExportKeys(filter) returns an instance with exactly the keys accepted by the filter, in order, no messages, and the settings of the original; the original instance is unchanged, also after the exported instance is wiped or closed.", "quantifier": "all stores, filters and later operations on either instance", "why_tests_cant": "aliasing between two instances shows only after a later Wipe", "anchors": ["persistence.go: Krypto431.ExportKeys", "krypto431.go: Krypto431.Wipe"]}
{"id": "C39", "title": "Import adds exactly the accepted keys and protects existing ones", "statement": "ImportKeys imports exactly the incoming keys that have our group size and pass the filter and are either new or allowed to be replaced; without permission no existing key changes; the returned count is the number of keys imported; messages and settings never change.", "quantifier": "all stores, files, filters and answers", "why_tests_cant": "interaction of filter, duplicates and permission over arbitrary files", "anchors": ["persistence.go: Krypto431.ImportKeys"]}
{"id": "C40", "title": "Keys handed over by export and import work in both directions", "statement": "If A exports to a file the keys it keeps with B and B imports it, then every message A enciphers with these keys is deciphered by B, and every imported key that listed B as keeper is selectable by B for a message to A.", "quantifier": "all stores, keys and messages", "why_tests_cant": "composition of export, save, load, import, encipher and decipher", "anchors": ["persistence.go: ExportKeys, ImportKeys", "cipher.go: FindKey, Encipher, Decipher"]}
{"id": "C41", "title": "Wiping erases all secrets", "statement": "After Wipe/Close of an instance the instance holds no keys and no messages, and every memory cell that held a key id, key letter, comment, keeper, plaintext, ciphertext or message key id of it, the PFK or the salt has been overwritten.", "quantifier": "all instances and all memory layouts including shared slices", "why_tests_cant": "tests can not see the old backing arrays", "anchors": ["krypto431.go: Krypto431.Wipe, Key.Wipe, Message.Wipe, Wipe, WipeBytes"]}
{"id": "C42", "title": "PFK and salt setters validate and never half-apply", "statement": "SetPFKFromString succeeds exactly on hex strings of 32 bytes, SetSaltFromString exactly on hex strings of at least 32 bytes; on success the getter returns the same (lower-case) hex, on failure the previous value stays; GeneratePFK and GenerateSalt outputs are always accepted.", "quantifier": "all strings and all random draws", "why_tests_cant": "all strings", "anchors": ["persistence.go: SetPFKFromString, SetSaltFromString, GetPFKString, GetSaltString, GeneratePFK, GenerateSalt", "krypto431.go: WithPFK, WithPFKString, WithSalt, WithSaltString"]}
{"id": "C43", "title": "A confirmed password was typed twice and is strong enough", "statement": "AskAndConfirmPassword returns a password only if it was entered twice in a row and passes the entropy limit; every rejected or failed entry is wiped.", "quantifier": "all sequences of user inputs of any length", "why_tests_cant": "unbounded interaction", "anchors": ["persistence.go: AskAndConfirmPassword, AskForPassword"]}
{"id": "C44", "title": "Deriving the file key always wipes the password and respects the salt rules", "statement": "DerivePFKFromPassword* wipes the password buffer on every return path; without salt or with a short salt the old key is kept and an error is returned; on success the key depends only on password and salt and is 32 bytes long; the validating variant refuses weak passwords without changing the key.", "quantifier": "all instances, salts and passwords", "why_tests_cant": "all paths", "anchors": ["persistence.go: DerivePFKFromPassword, DerivePFKFromPasswordWithValidation, SetPFKFromPassword"]}
{"id": "C45", "title": "Random letters are uniform", "statement": "If the operating system delivers uniform 64-bit words, crand.Int63 is uniform on [0,2^63) and crand.Intn(26) gives each letter with exactly the same number of source values, and Intn(62) likewise for message ids; results are always in range.", "quantifier": "all source words; all n", "why_tests_cant": "statistical tests can not establish exact uniformity", "anchors": ["crand/crand.go: Int63, Uint64, Intn", "keys.go: NewKey", "functions.go: RandomAlnumRunes"]}
{"id": "C46", "title": "The random source is goroutine-safe", "statement": "Under every interleaving of concurrent Uint64/Read/ReadRunes calls, each call receives a contiguous block of the system random stream, no part of the stream is handed out twice, and the lock is never left held, even if reading fails.", "quantifier": "all numbers of goroutines, requests and schedules", "why_tests_cant": "all schedules", "anchors": ["crand/crand.go: cryptoRandSource.Uint64, Read, ReadRunes"]}
{"id": "C47", "title": "Concurrent Encipher calls do not share a key", "statement": "If several goroutines encipher messages on the same instance, no key is used for two messages under any schedule.", "quantifier": "all schedules", "why_tests_cant": "a race between selecting and marking a key", "anchors": ["cipher.go: FindKey, EnrichWithKey", "krypto431.go: Krypto431.mx"]}
{"id": "C48", "title": "New text messages are classified, processed and stored consistently", "statement": "NewTextMessage stores the message exactly when it returns it without error; a message from our own call-sign is stored enciphered, any other is stored deciphered or, if that fails, with its text unchanged; on error nothing is stored.", "quantifier": "all radiograms and stores", "why_tests_cant": "composition over arbitrary stores", "anchors": ["messages.go: Krypto431.NewTextMessage, Message.IsMyCall"]}
{"id": "C49", "title": "The optional key id argument selects the key", "statement": "NewTextMessage(radiogram, keyId) enciphers an outgoing message with the given key if it exists, is unused and not compromised, and returns an error otherwise.", "quantifier": "all radiograms, key ids and stores", "why_tests_cant": "the argument combination is not exercised by tests", "anchors": ["messages.go: Krypto431.NewTextMessage", "cipher.go: EnrichWithKey"]}
{"id": "C50", "title": "Radiogram fields are well formed", "statement": "If ParseRadiogram succeeds, From is a non-empty call-sign of letters, digits and '/', every recipient is a non-empty word of letters, digits and '/', KeyId and CipherText are empty, and the text has no trailing blanks, '+' or '='.", "quantifier": "all radiogram strings", "why_tests_cant": "regular-expression captures over all strings", "anchors": ["messages.go: Krypto431.ParseRadiogram, MessageRegexpFull, MessageRegexpSemi, MessageRegexpShort, MessageRegexpMini, MessageTrailRegexp", "functions.go: TrimRightRuneFunc"]}
{"id": "C51", "title": "The sender is the station after the first DE", "statement": "For a radiogram TO DE FROM ... whose recipients do not contain the word DE, ParseRadiogram takes the word after the first DE as sender and the words before it as recipients, whatever the text says.", "quantifier": "all recipients, senders and texts", "why_tests_cant": "greedy matching over all texts", "anchors": ["messages.go: Krypto431.ParseRadiogram"]}
{"id": "C52", "title": "The key filter of the CLI selects what its help says", "statement": "keys --invalid selects exactly expired or compromised keys, --expired expired ones, --compromised compromised ones, --used/--unused by the flag, --valid n keys not compromised and not expiring within n days, --id exactly the listed ids, --all everything; combined filters select the intersection.", "quantifier": "all keys, times and option combinations", "why_tests_cant": "all combinations of options and keys", "anchors": ["cmd/krypto431/keys.go: keys (filterFunction)", "cmd/krypto431/krypto431.go: flag usage texts", "keys.go: IsExpired, IsValid"]}
{"id": "C53", "title": "The message filter of the CLI selects what its help says", "statement": "messages --id selects exactly the listed ids, --to requires all (with --or any) of the listed recipients, --from one of the listed senders, --all everything.", "quantifier": "all messages and option combinations", "why_tests_cant": "all combinations", "anchors": ["cmd/krypto431/messages.go: messages (filterFunction)"]}
{"id": "C54", "title": "Forced deletion deletes only listed ids", "statement": "keys -d -y (and likewise messages -d -y) deletes exactly the keys (messages) whose ids are listed with --id, and nothing if no id is listed, whatever the other filters; the file is rewritten exactly if something was deleted.", "quantifier": "all stores and options", "why_tests_cant": "all option combinations", "anchors": ["cmd/krypto431/keys.go: keys", "cmd/krypto431/messages.go: messages"]}
{"id": "C55", "title": "Selecting a summary line deletes that item", "statement": "If ids are no longer than a group and contain no blank or comma, each line produced by SummaryOfKeys starts with the id of its key, and DeleteKeysBySummaryString on a chosen set of lines deletes exactly the chosen keys; likewise SummaryOfMessages and DeleteMessagesBySummaryString, with ids of at most four characters.", "quantifier": "all stores, filters and selections", "why_tests_cant": "formatting and parsing must be inverse for every key", "anchors": ["keys.go: SummaryOfKeys, DeleteKeysBySummaryString", "functions.go: withPadding, padding, predictColumnSizesOfKeys"]}
{"id": "C56", "title": "PDF pagination loses nothing and respects the page size", "statement": "Every selected key (message) is printed exactly once and in order, and no page made of items that each fit a page is longer than the page.", "quantifier": "all lists of items and line counts", "why_tests_cant": "all sequences of item sizes", "anchors": ["print.go: Krypto431.KeysPDF, Krypto431.MessagesPDF"]}
{"id": "C57", "title": "Changing the file key needs consent", "statement": "The pfk command rewrites a persistence file only after a successful Load with the old key and, for --random, --new and --new-pfk without --yes, only after the user confirmed; contradictory options never change the file.", "quantifier": "all option combinations and answers", "why_tests_cant": "all combinations", "anchors": ["cmd/krypto431/pfk.go: managePFK", "cmd/krypto431/functions.go: setSaltAndPFK"]}
{"id": "C58", "title": "An initialized store has a valid call-sign and valid settings", "statement": "If the init command saves a store, its call-sign has at least two characters and its settings pass Assert.", "quantifier": "all option combinations", "why_tests_cant": "option errors are swallowed inside option functions", "anchors": ["cmd/krypto431/initialize.go: initialize", "krypto431.go: Assert, SetCallSign, WithCallSign"]}
{"id": "C59", "title": "Validity periods are consistent", "statement": "IsValid(d) for d >= 0 implies not IsExpired; IsValid is antitone in d (a key valid for a year is valid for a month and a day); a key is expired or valid-for-zero except exactly at its expiry instant.", "quantifier": "all times and durations", "why_tests_cant": "all instants", "anchors": ["keys.go: IsExpired, IsValid, IsValidOneDay, IsValidOneMonth, IsValidOneYear"]}
{"id": "C60", "title": "The printed coding legend is the coding", "statement": "For each column A..Z of the printed legend, coding table 1 and 2 characters are exactly the characters the coder uses, and the four marked control columns are exactly those the decoder treats as table switch, binary, case and key change.", "quantifier": "all 26 columns of both tables", "why_tests_cant": "no test compares the printed legend with the coder", "anchors": ["print.go: KeyFooter", "cipher.go: CharacterTablePrimary, CharacterTableSecondary, decodeCharacter"]}
{"id": "C61", "title": "Decoding never invents characters and never panics", "statement": "Decoding any sequence of letters yields only characters of the coding legend, and decoding any rune sequence returns an error rather than panicking when it meets a non-letter or binary mode.", "quantifier": "all rune sequences and decoder states", "why_tests_cant": "adversarial input", "anchors": ["cipher.go: codecState.decodeCharacter"]}
{"id": "C62", "title": "Enciphering twice is refused", "statement": "After a successful automatic Encipher, a second Encipher on the same message returns an error and changes neither the message nor the store.", "quantifier": "all messages and stores", "why_tests_cant": "history property", "anchors": ["cipher.go: Message.EnrichWithKey, Message.Encipher"]}
{"id": "C63", "title": "A deciphered message is left alone", "statement": "After TryDecipherPlainText succeeded on a message, calling it again returns an error and changes nothing; listing messages repeatedly is idempotent.", "quantifier": "all messages and stores", "why_tests_cant": "history property", "anchors": ["cipher.go: TryDecipherPlainText", "messages.go: SummaryOfMessages"]}
{"id": "C64", "title": "Importing leaves the own key, salt and settings alone", "statement": "ImportKeys, with any options including the documented WithPFK(k.GetPFK()) and WithSalt(k.GetSalt()), leaves persistence file key, salt, settings and call-sign of the importing instance unchanged, so that it can be saved afterwards.", "quantifier": "all instances, files and options", "why_tests_cant": "aliasing of pointers handed to another instance that is wiped; depends on options and later operations", "anchors": ["persistence.go: Krypto431.ImportKeys, Krypto431.GetPFK", "krypto431.go: WithPFK, WithSalt, Krypto431.Wipe"]}
{"id": "C65", "title": "Success of Save means that the data is stored", "statement": "If Save returns no error, the file holds the complete current state: a new instance that loads it with the same key gets the same settings, call-sign, keys and messages.", "quantifier": "all instances, file-system states, user answers and write failures", "why_tests_cant": "needs fault injection at every write, and the user declining", "anchors": ["persistence.go: Krypto431.Save"]}
{"id": "C66", "title": "Permission to overwrite is given for one file", "statement": "The permission to overwrite that a successful Load gives extends only to the loaded file: Save to another existing file asks or fails unless the user has enabled overwriting.", "quantifier": "all instances, files and histories", "why_tests_cant": "history property over two files", "anchors": ["persistence.go: Krypto431.Load, Krypto431.Save, Krypto431.SetPersistence"]}
{"id": "C67", "title": "Changing the file key changes nothing else", "statement": "When pfk --change succeeds, the file holds the same settings, call-sign, keys and messages as before, opens with the new key (random and printed, derived from the given or entered password and the salt in force, or given) and with no other key, and no other file is changed.", "quantifier": "all files, options, passwords and answers", "why_tests_cant": "all combinations of key sources and salts; no other key opens the file", "anchors": ["cmd/krypto431/pfk.go: managePFK", "persistence.go: Krypto431.Save, Krypto431.Load"]}
{"id": "C68", "title": "A radiogram in the short form is read as it is laid out", "statement": "A radiogram of the form 'TO ... DE FROM [date-time group] [instruction] [count] = TEXT = K' (any case, any spacing, and K or + as the end sign) yields a message with exactly these recipients, this sender, this time (the current time if there is no date-time group) and this text; instruction and count are not part of the text. If the date-time group can not be parsed, the message is refused.", "quantifier": "all recipients, senders, date-time groups, texts and spacings", "why_tests_cant": "the regular expressions are ambiguous; which reading is preferred depends on all parts", "anchors": ["messages.go: Krypto431.ParseRadiogram"]}
{"id": "C69", "title": "What is printed as traffic can be received", "statement": "If a message has been enciphered, the line printed under =TRAFFIC=EXAMPLE= can be entered at any other station that holds the keys: NewTextMessage stores a message with the same sender, recipients (or the receiving station, if there are none), time, key id, ciphertext and the original text.", "quantifier": "all texts, keys, stations, group sizes, lengths and line breaks", "why_tests_cant": "composition of enciphering, printing, parsing and deciphering for messages of every length", "anchors": ["print.go: Message.String", "messages.go: Krypto431.ParseRadiogram, Krypto431.NewTextMessage", "cipher.go: Message.Encipher, Message.TryDecipherPlainText"]}
{"id": "C70", "title": "Printed messages are complete", "statement": "The printed form of a message shows the text word by word, the ciphertext as key id and groups, and an example of traffic with recipients, sender, time and the right number of groups; a section is missing exactly when there is nothing to show. MessagesAsText and KeysAsText print exactly the items that pass the filter, in the order of the store.", "quantifier": "all messages, group sizes, filters and stores", "why_tests_cant": "all lengths of text and ciphertext; all filters", "anchors": ["print.go: Message.String, Krypto431.KeysAsText, Krypto431.MessagesAsText"]}
{"id": "C71", "title": "No pad is used twice in a net of stations", "statement": "Any number of stations hold copies of the same pads and send messages to each other, each selecting keys automatically and deciphering what it receives, in any order. No pad is used for two messages by any stations.", "quantifier": "all nets, any number of stations, keys and messages, every order of events", "why_tests_cant": "distributed executions of every length; the stations share no state", "anchors": ["cipher.go: Message.Encipher, Message.Decipher, Krypto431.FindKey, Message.EnrichWithKey"]}
{"id": "C72", "title": "Perfect secrecy of everything that is sent", "statement": "Messages are enciphered one after the other with keys which the store selects. Which keys are used and how long the ciphertexts are does not depend on the letters of the keys. Given that, all sequences of ciphertexts of these lengths are equally likely, whatever the texts: of all choices of the letters of the keys, exactly one in 26^n leads to each of them, where n is the number of letters of ciphertext. The same holds for the words of the random source when the keys are made with GenerateKeys.", "quantifier": "all stores, lists of messages of any length, texts, ciphertexts and words of the random source", "why_tests_cant": "a statement about the distribution over all pads and all tapes of the random source", "anchors": ["cipher.go: Message.Encipher, Krypto431.FindKey", "keys.go: Krypto431.GenerateKeys, Krypto431.NewKey", "crand/crand.go: Int63, Intn"]}
{"id": "C73", "title": "No pad is used twice over successive runs of the program", "statement": "Start with a file whose keys have different ids and run the command messages on it any number of times, with or without --new, --list and --output to another file; runs may return, with or without an error, or be killed at any time. No pad is used twice for the messages printed.", "quantifier": "all files, sequences of runs, radiograms, options, file system errors and moments at which a run is killed", "why_tests_cant": "executions of every length with failures and crashes at every point between printing and saving", "anchors": ["cmd/krypto431/messages.go: messages", "persistence.go: Krypto431.Load, Krypto431.Save", "messages.go: Krypto431.NewTextMessage", "cipher.go: Message.Encipher"]}
{"id": "C74", "title": "Commands that only show change nothing", "statement": "The commands keys and messages without --new, --delete, --import and --export, that is with --list and --output only, leave the file with the keys and messages exactly as it is, whatever the filters, the errors met and the output file, also if the program is killed. No file but the output file is touched.", "quantifier": "all files, options, filters, output files, file system errors and moments at which the program is killed", "why_tests_cant": "every combination of options and failures, and the output file may be any file", "anchors": ["cmd/krypto431/keys.go: keys", "cmd/krypto431/messages.go: messages", "print.go: Krypto431.KeysTextFile, Krypto431.KeysPDF, Krypto431.MessagesTextFile, Krypto431.MessagesPDF"]}
{"id": "C75", "title": "keys --new adds exactly the keys asked for to the file", "statement": "If keys --new n ends without error, the file holds everything it held before, and behind the former keys n new ones: of the configured length and id length, with ids different from each other and from all former ones, unused and not compromised, kept by the given keepers, expiring when asked or in 365 days. If the expiry date can not be parsed, nothing is written. No other file but the output file is changed.", "quantifier": "all files that can be loaded, all counts, expiry dates, keepers, other options and random sources", "why_tests_cant": "the file content before and the random draws are arbitrary, and the claim is about the whole file", "anchors": ["cmd/krypto431/keys.go: keys", "keys.go: Krypto431.GenerateKeys, Krypto431.NewKey", "persistence.go: Krypto431.Save, Krypto431.Load"]}
{"id": "C76", "title": "A message entered at one station arrives in the file of the other", "statement": "messages --new either fails, prints no message and writes nothing, or prints one message; then the file holds what it held before and the printed message, and the keys of the message are marked as used. If the other station, which holds the keys, runs messages --new and enters the traffic line that was printed, its file holds a message with the same sender, recipients, text, key id and ciphertext, and the keys of the message are marked as used there too.", "quantifier": "all pairs of files, radiograms in the short form, wrappings, random sources and other options; messages of up to 9998 groups", "why_tests_cant": "composition of parsing, enciphering, printing, parsing, deciphering and storing, for all texts, keys and stores", "anchors": ["cmd/krypto431/messages.go: messages", "messages.go: Krypto431.NewTextMessage, Krypto431.PromptNewTextMessage", "print.go: Message.String", "cipher.go: Message.Encipher, Message.Decipher", "persistence.go: Krypto431.Save, Krypto431.Load"]}
{"id": "C77", "title": "keys --import adds exactly the accepted keys to the file", "statement": "If the file to import can not be loaded, keys --import returns an error and writes nothing. If it can, and all questions are answered, the own file holds afterwards everything it held before except the keys replaced, and the imported keys: those that match the filter, have an id of the right length, and are new or may, according to the user, replace an old key. The file imported and all other files but the output file are not changed.", "quantifier": "all pairs of files without double key ids, all filters, answers and other options", "why_tests_cant": "both files, the filter and the answers are arbitrary, and the claim is about the whole file", "anchors": ["cmd/krypto431/keys.go: keys", "persistence.go: Krypto431.ImportKeys, Krypto431.Load, Krypto431.Save"]}
{"id": "C78", "title": "keys --export hands over the selected keys and leaves the own file alone", "statement": "keys --export writes a file with exactly the keys that match the filter, without messages; the own file is not changed, and an existing file is replaced only with --yes or if the user agrees. Whoever gets the file can open it with keys --import and by entering what is right; then their file holds everything it held before and the keys handed over, with the same letters and with the exporting station among their keepers.", "quantifier": "all pairs of stations, filters on both sides, file names and other options", "why_tests_cant": "composition of two commands on two arbitrary files", "anchors": ["cmd/krypto431/keys.go: keys", "persistence.go: Krypto431.ExportKeys, Krypto431.ImportKeys, Krypto431.Save, Krypto431.Load"]}
{"id": "C79", "title": "Deleting with selection removes exactly the ticked items from the file", "statement": "keys --delete and messages --delete without --yes show the items that match the filter and ask which of them to delete. If nothing matches, the question is not answered or nothing is ticked, no file but the output file is touched. Otherwise the file holds afterwards everything it held before except exactly the items on the ticked lines; messages may be deciphered and keys marked as used by showing the summary; no other file but the output file is changed.", "quantifier": "all files with distinct printable ids, all filters and all selections from the lines shown", "why_tests_cant": "the ticked items are identified by the text of the lines, for which there is no bound on number or content", "anchors": ["cmd/krypto431/keys.go: keys", "cmd/krypto431/messages.go: messages", "keys.go: Krypto431.SummaryOfKeys, Krypto431.DeleteKeysBySummaryString", "messages.go: Krypto431.SummaryOfMessages, Krypto431.DeleteMessagesBySummaryString", "persistence.go: Krypto431.Save"]}
{"id": "C80", "title": "Every file that the program has written is in order", "statement": "Start with files that cannot be opened as key files. After any number of runs of initialize, keys, messages and pfk by any stations, with any options, passwords, answers and failures, killed at any time, and with files copied, removed and sent between them, every file that can be loaded holds a store in order: settings within the limits, key ids that are different groups of letters, pads that are a positive whole number of groups of letters, different message ids of four letters or digits, and no call-sign or one of at least two characters.", "quantifier": "all sequences of runs and file operations, all options, inputs, random draws, failures and moments of being killed", "why_tests_cant": "the histories are unbounded and the property is an invariant of the whole program over all of them", "anchors": ["cmd/krypto431/initialize.go: initialize", "cmd/krypto431/keys.go: keys", "cmd/krypto431/messages.go: messages", "cmd/krypto431/pfk.go: managePFK", "persistence.go: Krypto431.Save, Krypto431.Load, Krypto431.ImportKeys, Krypto431.ExportKeys", "keys.go: Krypto431.GenerateKeys", "messages.go: Krypto431.NewTextMessage"]}
{"id": "C81", "title": "Every key in every file was drawn for it alone from the random source", "statement": "In any history of runs and file operations as in C80, each run that makes keys takes the id and then the pad of each key, letter by letter, from what the system's random source delivers to that run, and no delivered letter goes into two keys. Every key that anybody finds in any file is one of these, with id and pad unaltered, and the keys of a file are all different ones.", "quantifier": "all sequences of runs and file operations, all options, inputs, random draws, failures and moments of being killed; all files and all who load them", "why_tests_cant": "the claim is about the origin of every key after unbounded histories of several stations", "anchors": ["keys.go: Krypto431.NewKey, Krypto431.GenerateKeys", "crand/crand.go: Intn", "cmd/krypto431/initialize.go: initialize", "cmd/krypto431/keys.go: keys", "cmd/krypto431/messages.go: messages", "cmd/krypto431/pfk.go: managePFK", "persistence.go: Krypto431.Save, Krypto431.Load, Krypto431.ImportKeys, Krypto431.ExportKeys"]}
{"id": "C82", "title": "Nothing is written in the clear unless it is asked for", "statement": "Whatever a run of the program leaves in the file system, even if it is killed while writing, each file is either as it was before, or holds the beginning or all of one encryption, with the key that opened the store (keys, messages, and also the file written by keys --export) or with the key just set (initialize, pfk), or is the file named with --output and holds the beginning or all of the printed text of selected items. keys prints nothing on the screen but a listing with --list, which tells nothing of the letters of any key; initialize prints nothing; messages prints a message only with --new and a listing only with --list; pfk prints a key or salt only if one is to be generated. What is encrypted opens with no other key.", "quantifier": "all commands, options, inputs, stores and file systems, all failures and all moments of being killed", "why_tests_cant": "a leak in one of many error paths or at one moment of a write is found by a test only if the test hits that path and looks at that file", "anchors": ["cmd/krypto431/keys.go: keys", "cmd/krypto431/messages.go: messages", "cmd/krypto431/initialize.go: initialize", "cmd/krypto431/pfk.go: managePFK, generatePFK", "persistence.go: Krypto431.Save, Krypto431.ExportKeys, Krypto431.ImportKeys", "print.go: KeysTextFile, MessagesTextFile, KeysPDF, MessagesPDF"]}
{"id": "C83", "title": "Both files hold the whole conversation, and no pad is used twice", "statement": "Two stations make keys, hand them over with keys --export and keys --import, and send messages to each other with messages --new, each message being entered at the receiving station before the next is made. If at the beginning each has all pads that the other may choose for messages to it (for instance because neither has a key), then no pad is ever used for two messages, both files hold all messages with the texts that were entered, in the order in which they were sent, no pad is lost, and each station still has all pads that the other may choose.", "quantifier": "all sequences of runs, in both directions, of any length; all texts over the coding legend, wrappings, random sources, answers, filters that select at least the keys for the other station, and anything done in between that leaves the two files alone", "why_tests_cant": "histories of unbounded length on two computers, composing key generation, export, import, parsing, enciphering, printing, deciphering and storing", "anchors": ["cmd/krypto431/keys.go: keys", "cmd/krypto431/messages.go: messages", "cipher.go: Message.Encipher, Message.Decipher", "keys.go: Krypto431.NewKey", "cipher.go: Krypto431.FindKey", "persistence.go: Krypto431.Save, Krypto431.Load, Krypto431.ImportKeys, Krypto431.ExportKeys"]}
{"id": "C84", "title": "A text that the keys suffice for is enciphered and gets there", "statement": "If the file can be read and written and the station enters a radiogram of its own in the short form, then messages --new prints a message with the entered text, sender and recipients, stores it behind the former ones and succeeds, provided that the keys suffice: the text is in capital letters (other than Q and Z) and spaces and the keys for the recipients have together one letter of capacity per character, or it is any text over the coding legend and each key for the recipients has four letters of capacity per character. If the printed traffic is then entered at another station that has the pads, both files hold the text.", "quantifier": "all files, call-signs, texts, date-time groups, keys, recipients, random sources and wrappings", "why_tests_cant": "that no step of loading, parsing, selecting keys, enciphering, saving, printing and receiving can fail is a statement about all inputs; a test only shows one success", "anchors": ["cmd/krypto431/messages.go: messages", "messages.go: Krypto431.NewTextMessage, Krypto431.ParseRadiogram", "cipher.go: Message.Encipher, Message.EnrichWithKey", "persistence.go: Krypto431.Save, Krypto431.Load"]}
{"id": "C85", "title": "How long a ciphertext gets and how many keys it takes", "statement": "A ciphertext is whole groups and has at least one letter per character of the text. A message for which the program chooses the keys takes at most four letters per character (one, if the text is capital letters other than Q and Z and spaces), a group and two letters per change of the key, and less than a group of padding; the key is changed at most once per character, and a key is only given up when all but a group and two of its letters have been used for the text, so a message does not take more keys than its length requires.", "quantifier": "all texts, group sizes, stores with keys of any lengths, recipients", "why_tests_cant": "a bound for texts and stores of every length; tests compare single lengths", "anchors": ["cipher.go: Message.Encipher, Krypto431.FindKey", "cipher.go: codecState.encodeCharacter, codecState.changeKey, codecState.pad"]}
{"id": "C86", "title": "Decipher reads every ciphertext as a person does with the coding legend", "statement": "For any ciphertext, whoever wrote it, Decipher succeeds if and only if it can be read by hand with the printed coding legend, the DIANA table and the pads; the text is then the one read by hand, there is only one such text, and the pads marked as used are those taken. If Decipher fails, nothing is marked and PlainText holds the text of the longest readable beginning. What Encipher writes can be read by hand.", "quantifier": "all ciphertexts, stores with distinct ids of letters, group sizes", "why_tests_cant": "the set of ciphertexts that other people or programs can produce is infinite, and control letters can come in any order", "anchors": ["cipher.go: Message.Decipher, codecState.decodeCharacter", "cipher.go: Message.Encipher"]}
{"id": "C87", "title": "Damage to a ciphertext stays where it is", "statement": "If the end of a ciphertext is lost, the rest still deciphers, to a beginning of the text. What can be read up to some letter is in PlainText whatever follows, also if Decipher fails. If a letter that stands for a character is replaced by another letter that stands for a character, exactly that one character of the text changes; the success and the marked keys do not.", "quantifier": "all ciphertexts, positions and letters, stores with distinct ids of letters", "why_tests_cant": "a relation between two runs, for all ciphertexts, places and kinds of damage", "anchors": ["cipher.go: Message.Decipher, codecState.decodeCharacter"]}
{"id": "C88", "title": "No command crashes", "statement": "Whatever the options, passwords, answers, failures of reading and writing, and whatever files earlier runs of the program have left, initialize, keys, messages and pfk end with success or an error, never with a panic.", "quantifier": "all runs of the four commands", "why_tests_cant": "the ways to reach a panic depend on the file contents, the text entered, the order of questions and failures; no test runs the commands", "anchors": ["cmd/krypto431/keys.go: keys", "cmd/krypto431/messages.go: messages", "cmd/krypto431/pfk.go: managePFK", "cmd/krypto431/initialize.go: initialize", "persistence.go: Krypto431.Save, Krypto431.Load", "cipher.go: codecState.encodeCharacter"]}
{"id": "C89", "title": "Columns are as wide as their widest entry", "statement": "ColumnSizes returns, for any rows and optional headers, one width per column that occurs, namely the length of the longest cell or of the header if that is longer. HighestInt and LowestInt return the greatest and the least of their arguments, 0 if there are none.", "quantifier": "all rows, headers and numbers", "why_tests_cant": "rows of different lengths and any number of headers; no test calls these functions", "anchors": ["functions.go: ColumnSizes, HighestInt, LowestInt"]}
{"id": "C90", "title": "The instance of a key is the one it is stored in", "statement": "Whatever a program does short of calling SetInstance, GetInstance of every key and message returns the instance whose Keys or Messages it is in, so that call-sign, group size and columns it consults are those of that instance.", "quantifier": "all sequences of New, NewKey, NewTextMessage, DeleteKey, DeleteMessage, Load, ImportKeys, ExportKeys, Wipe, changes of settings and assignments through pointers, on any number of instances", "why_tests_cant": "an instance's identity is an address; arrays grow, are shared and are used again depending on the history", "anchors": ["keys.go: Krypto431.NewKey, Key.GetInstance, Key.SetInstance", "messages.go: Krypto431.ParseRadiogram, Message.GetInstance", "persistence.go: Krypto431.Load, Krypto431.ExportKeys, Krypto431.ImportKeys"]}
{"id": "C91", "title": "A pointer to a key or message refers to the stored one", "statement": "A pointer returned by GetKey stays the pointer GetKey returns for that id as long as the key is there, so that what is assigned through it is stored; what is assigned through the pointers NewKey and NewTextMessage return is found in the store.", "quantifier": "all sequences of operations between getting the pointer and using it", "why_tests_cant": "whether a pointer is still good depends on the growth of arrays and on which key was deleted in between", "anchors": ["cipher.go: Krypto431.GetKey", "keys.go: Krypto431.NewKey, Krypto431.DeleteKey", "messages.go: Krypto431.NewTextMessage, Krypto431.DeleteMessage"]}
{"id": "C92", "title": "The lists of keys and messages are tables whose columns line up", "statement": "SummaryOfKeys and SummaryOfMessages return a heading and one line for each selected item, in order, such that there are column widths at which every heading and every entry (id, keepers or Anonymous, dates, Yes or No, comment; id, date, recipients or NIL, sender or NIL, digest) begins, with at least one blank between neighbours.", "quantifier": "all stores and filters", "why_tests_cant": "the widths depend on all selected items together", "anchors": ["keys.go: Krypto431.SummaryOfKeys", "messages.go: Krypto431.SummaryOfMessages", "functions.go: predictColumnSizesOfKeys, predictColumnSizesOfMessages, withPadding, padding"]}
{"id": "C93", "title": "Encipher leaves no copy of the coded text in memory", "statement": "When Encipher has returned, every array that held the coded text (the letters before the pad is applied) has been overwritten.", "quantifier": "all messages, stores, outcomes and ways in which append allocates", "why_tests_cant": "the arrays are out of reach once the function has returned; no test can look at them", "anchors": ["cipher.go: Message.Encipher, codecState.encodeCharacter, codecState.changeKey, codecState.pad", "krypto431.go: newChunk, chunk.Wipe"]}
{"id": "C94", "title": "Wiping a message leaves no copy of a deciphered text", "statement": "When a message that Decipher has deciphered is wiped, every array that held any part of the plaintext has been overwritten.", "quantifier": "all ciphertexts, stores and ways in which append allocates", "why_tests_cant": "arrays that a growing slice has outgrown are out of reach of the program and of tests", "anchors": ["cipher.go: Message.Decipher, codecState.decodeCharacter", "krypto431.go: Message.Wipe"]}
{"id": "C95", "title": "A key is found and marked by its id", "statement": "GetKey returns the first key whose id is what was typed, without blanks around it and in capitals, and fails exactly if there is none; it makes no difference whether an id is typed in capitals or small letters. MarkKeyUsed sets the flag of that key and changes nothing else; if there is no such key, it fails and changes nothing.", "quantifier": "all lists of keys and ids", "why_tests_cant": "any number of keys, equal ids and spellings; the tests look up ids the program has just made", "anchors": ["cipher.go: Krypto431.GetKey, Krypto431.MarkKeyUsed"]}
{"id": "C96", "title": "The documented procedure works from nothing to received messages", "statement": "After initialize reports success and has written its file, the same options (key, password and salt, or the password entered) open the file in later commands; it has the call-sign, settings and number of keys asked for and no messages. If two stations with different call-signs of at least two characters and equal group size have both done this, and then make keys, hand them over and send messages to each other, in any order and number, no pad is ever used for two messages, and both files hold the texts of all messages in the order in which they were sent.", "quantifier": "all options, answers and passwords of initialize, and all histories of runs of keys and messages on two computers after it", "why_tests_cant": "the runs interact only through encrypted files and printed traffic; the histories are unbounded, and no test runs a command", "anchors": ["cmd/krypto431/initialize.go: initialize", "cmd/krypto431/functions.go: setSaltAndPFK", "persistence.go: Krypto431.Save, Krypto431.Load", "cmd/krypto431/keys.go: keys", "cmd/krypto431/messages.go: messages"]}
{"id": "C97", "title": "A printed key shows all its letters, the table and the legend, and nothing covers anything else", "statement": "On the page that is printed for a key, the characters below the head and left of the reciprocal table, read row by row, are exactly the letters of the key in order; the reciprocal table and, on a page of at least the demanded width, the coding legend are complete; the id of the key stands above, and so does the head with keepers, dates and the mark of a used key if it is not wider than the page.", "quantifier": "every key of letters, every group size, width of the page and of the key column, and every division of texts into lines by the drawing library that is as stated", "why_tests_cant": "The layout depends on the length of the key, the group size and two widths; whether two parts overlap for some combination cannot be found by trying a few.", "anchors": ["print.go: Key.String, KeyFooter", "keys.go: Key.GroupsBlock", "functions.go: groups", "diana/reciprocal-table.txt"]}
{"id": "C98", "title": "Interrupting a password prompt ends the program and leaves the terminal as it was", "statement": "While AskForPassword waits, an interrupt (SIGINT, SIGTERM) is never lost and ends the program; however the program ends or the function returns, the terminal is in the state it had at the call. Signals never make the program panic, and the goroutine that waits for them does not outlive the call.", "quantifier": "all interleavings of the two goroutines with any number of signals at any moments, all sequences of entries", "why_tests_cant": "the outcome depends on the scheduling of goroutines and on the moment at which signals arrive", "anchors": ["persistence.go: AskForPassword"]}
{"id": "C99", "title": "Lists show no key letters, and traffic shows nothing of a text but its ciphertext", "statement": "The list of keys does not depend on the letters of the keys, whatever filter options are given. The printed line for transmission depends only on recipients, sender, time, key id and ciphertext of a message.", "quantifier": "all stores, all letters of all keys, all filter options, all messages", "why_tests_cant": "noninterference compares all pairs of secrets, not single outputs", "anchors": ["keys.go: SummaryOfKeys", "cmd/krypto431/keys.go: filterFunction", "print.go: Message.String"]}
{"id": "C100", "title": "Programs that run at the same time on the same file do not use the same pad", "statement": "However many runs of the program enter new messages into the same file, also while others are under way, no pad is used twice for the messages that they print.", "quantifier": "all files, any number of runs with any radiograms, all orders in which they start and end", "why_tests_cant": "depends on how separate processes overlap", "anchors": ["cmd/krypto431/messages.go: messages", "persistence.go: Load, Save"]}
{"id": "C101", "title": "Radiograms in the full, semi-full and short forms are read as written", "statement": "A radiogram in one of the documented forms that have an equal sign before the text, with a documented date-time group or none and with any of the documented ends or none, gives a message with exactly the recipients, sender, time and text that are written in it; addressees, instruction, count and the end sign are not part of the text.", "quantifier": "all call-signs, date-time groups, addressees, instructions, counts and texts", "why_tests_cant": "unbounded texts; depends on which of the ways to match an expression comes first", "anchors": ["messages.go: MessageRegexpFull, MessageRegexpSemi, MessageRegexpShort, MessageTrailRegexp, ParseRadiogram"]}
{"id": "C102", "title": "Radiograms in the shortest form are read as written", "statement": "A radiogram in the shortest documented form (call-signs, DE, sender, perhaps a date-time group, and the text) gives a message with exactly the recipients, sender, time and text that are written in it.", "quantifier": "all call-signs, date-time groups and texts", "why_tests_cant": "unbounded texts; depends on four expressions that are tried in turn", "anchors": ["messages.go: MessageRegexpMini, MessageRegexpShort, ParseRadiogram"]}
{"id": "C103", "title": "Expired keys never encipher", "statement": "A successful Encipher uses no key whose expiry date has passed.", "quantifier": "all stores, messages and times", "why_tests_cant": "universally quantified over stores and over the keys chosen in the course of a message", "anchors": ["cipher.go: FindKey, EnrichWithKey, Encipher", "keys.go: IsExpired"]}
{"id": "C104", "title": "What can be read stays readable", "statement": "A message that one store deciphers is deciphered to the same text by every store with distinct key ids that holds the same pads, wherever they are in its list of keys, whatever other keys there are and whatever dates, keepers, marks and comments they have; both mark the same pads as used.", "quantifier": "all messages, all pairs of stores", "why_tests_cant": "relates two executions on arbitrary stores", "anchors": ["cipher.go: GetKey, Decipher, TryDecipherPlainText"]}
{"id": "C105", "title": "What has been stored stays stored", "statement": "Once a file holds a store, everything in it (call-sign, settings, each key with id, letters, keepers, dates and marks, each message) is still in the file after any number of runs of keys, messages, pfk and initialize, on this and other files, as long as no run is asked to remove something from it (--delete, replacing keys while importing, output, export or initialize to the same file) and the file can be written completely; the file opens with the same key unless pfk --change was used on it. Keys may only become marked as used.", "quantifier": "all files, stores, sequences of runs of all commands with all other options, radiograms, random draws, answers, passwords, and runs that overlap or die before writing", "why_tests_cant": "a test makes a few runs one after the other; the claim is about every history, and a lost update only shows when two runs overlap in a certain order", "anchors": ["persistence.go:328-403", "persistence.go:405-480", "persistence.go:538-612", "keys.go:58-138", "cmd/krypto431/keys.go:16-263", "cmd/krypto431/messages.go:15-199", "cmd/krypto431/pfk.go:11-136"]}
{"id": "C106", "title": "Wiping a message leaves nothing of its text", "statement": "After Message.Wipe (and so after DeleteMessage, and after Wipe/Close of the instance) no memory that the message refers to still holds its text: neither plaintext, ciphertext and key id nor the radiogram it was entered as.", "quantifier": "all messages, memory layouts and behaviours of the random source", "why_tests_cant": "tests look at the fields that are set to nil; the field that is forgotten keeps its array", "anchors": ["krypto431.go: Message.Wipe, Message.RandomWipe, Message.ZeroWipe, Krypto431.Wipe", "messages.go: ParseRadiogram, NewTextMessage, DeleteMessage"]}
{"id": "C107", "title": "The pen-and-paper procedures of the README interwork with the program", "statement": "Whoever enciphers letters by hand in one of the ways that README.md describes - with the first table, with the other arrangement, with the letters of text and key exchanged at any places, or by adding modulo 26 - writes the letters that the program writes, and gets the text back from what the program has written; filling up with Z adds nothing to the text that Decipher reads.", "quantifier": "all texts, pads, and choices of where letters are exchanged; all cells of both printed tables", "why_tests_cant": "the tables and instructions are prose in the documentation, which no test reads; agreement must hold for each of the 26x26 pairs of letters and for texts of all lengths", "anchors": ["README.md: How, DIANA APPROACH", "diana/diana.go: TrigraphRune", "cipher.go: Message.Encipher, Message.Decipher"]}
{"id": "C108", "title": "Settings that are accepted can be used for sending", "statement": "If the settings of an instance pass Assert, then after GenerateKeys has made as many keys without keepers as a text has letters, the text (letters of the first line of the coding legend) can be enciphered for no particular recipient.", "quantifier": "all group sizes, key lengths and other settings that Assert accepts, all random draws, all texts", "why_tests_cant": "Assert checks each setting by itself; whether a key has room for the announcement of the next one depends on two settings, and on how NewKey rounds the length, for all values", "anchors": ["krypto431.go: Assert", "keys.go: NewKey, GenerateKeys", "cipher.go: Message.Encipher"]}
{"id": "C109", "title": "What deciphers without an error is what was sent", "statement": "If a message has been enciphered and its ciphertext is altered or shortened on the way, Decipher at a station with the same keys returns an error, or still gives the text that was sent.", "quantifier": "all messages over the coding legend, all key stores, all altered ciphertexts (including those computed from the ciphertext and the text without any key)", "why_tests_cant": "tests decipher what was enciphered; whether some altered ciphertext passes for another text is a question about all ciphertexts and all pads", "anchors": ["cipher.go: Message.Encipher, Message.Decipher", "diana/diana.go: TrigraphRune"]}
{"id": "C110", "title": "The diagnostic form tells keys and messages apart", "statement": "Two keys, or two messages, of one instance have the same diagnostic form (%#v, GoString) only if all their fields are the same.", "quantifier": "all keys and messages whose fields contain none of the marks that separate the fields (blanks in ids and call-signs, quotation marks in texts, commas and brackets in names)", "why_tests_cant": "tests compare the form of an example; whether two different contents can be written alike is a question about all pairs", "anchors": ["keys.go: Key.GoString", "messages.go: Message.GoString"]}
{"id": "C111", "title": "Knowing one message does not help to read another", "statement": "Somebody who receives everything that a station sends, and knows the text of some of the messages, learns nothing about the text of another message beyond its key id and length.", "quantifier": "all stores, messages, texts, and all letters the keys may have; counted over all choices of the letters of the keys", "why_tests_cant": "a statement about all choices of pads and all pairs of texts; it fails only when two messages take letters of the same pad, which no test of a single message shows", "anchors": ["cipher.go: Message.Encipher", "cipher.go: Message.EnrichWithKey", "keys.go: FindKey", "keys.go: MarkKeyUsed"]}
{"id": "C112", "title": "A key made with dice as the README says has no preferred letters", "statement": "Made with dice in the way the README describes, each of the 26 numbers comes up equally often.", "quantifier": "all numbers of throws, all pairs of numbers; counted over all sequences of throws", "why_tests_cant": "a statement about the number of all sequences of throws; the program has no part in it, so no test of the program can settle it", "anchors": ["README.md: Manually generating a key with dice"]}
{"id": "C113", "title": "A key that is marked as used stays marked", "statement": "Take any two moments in the life of an instance. A key that is marked as used at the earlier moment and is still in the store at the later one is marked then too, whatever operations lie in between and whether they succeed or fail.", "quantifier": "all stores with pairwise different ids, all histories of generating, deleting, importing and marking (as used) keys and of creating, enciphering, deciphering and deleting messages, all outcomes of these calls", "why_tests_cant": "the mark is lost only after several failed calls have made ids equal; a test takes a few calls, mostly successful ones, from an unlimited number of histories", "anchors": ["cipher.go:472-481 (MarkKeyUsed)", "cipher.go:575-586 (deferred release in Encipher)", "keys.go (DeleteKey)", "persistence.go:538-612 (ImportKeys)"]}
{"id": "C114", "title": "The letters of a stored key never change", "statement": "Take any two moments in the life of an instance. A key that is in the store at both has the same letters, dates, comment and mark of compromise, whatever operations lie in between and whether they succeed or fail.", "quantifier": "all stores, all histories of generating, deleting, importing and marking (as used) keys and of creating, enciphering, deciphering and deleting messages, with or without named keys, all outcomes of these calls", "why_tests_cant": "a statement about every sequence of calls; failed calls overwrite memory and deletions move keys about, and a test sees only some of these sequences", "anchors": ["cipher.go:548-661 (Encipher)", "cipher.go:668-796 (Decipher, TryDecipherPlainText)", "keys.go:82-102 (DeleteKey)", "messages.go (NewTextMessage, DeleteMessage)", "persistence.go:538-612 (ImportKeys)"]}
{"id": "C115", "title": "A stored message stays as it is while work goes on elsewhere", "statement": "Take any sequence of operations none of which is applied to a given stored message: keys are generated, deleted, imported and marked, messages are created, other messages are enciphered, deciphered and deleted. Afterwards the message is still stored, with the same recipients, sender, time, plaintext, ciphertext, radiogram and key id.", "quantifier": "all stores, all sequences of such operations of any length, whether the calls succeed or fail", "why_tests_cant": "a statement about every sequence of calls; deleting moves messages about and overwrites memory that may be shared, and a test sees only some sequences and only some ways of sharing", "anchors": ["keys.go:83-100 (DeleteKey)", "krypto431.go:283-369 (Wipe)", "messages.go:120-164 (NewTextMessage)", "messages.go:320-338 (DeleteMessage)", "cipher.go:548-661 (Encipher)"]}
{"id": "C116", "title": "A failed Decipher leaves the message as it was", "statement": "If Decipher returns an error, the message still has the text, ciphertext, key id and all other contents it had before the call, and nothing in the instance has changed.", "quantifier": "all stores, all messages, all ciphertexts, all causes of failure", "why_tests_cant": "the ways in which a ciphertext can turn out unreadable are unlimited, and the failure may come after any number of letters have been deciphered", "anchors": ["cipher.go:663-731 (Decipher)"]}
{"id": "C117", "title": "Older keys are used before newer ones", "statement": "When Encipher picks the keys for a message itself, it takes a key that came into the store after a given moment only if it also takes every suitable key that was in the store at that moment.", "quantifier": "all histories of generating, importing, deleting and marking keys and of creating, enciphering, deciphering and deleting messages, all pairs of moments, all messages that name no key", "why_tests_cant": "the order of the keys in the store is the result of all earlier operations; a test sees only some histories", "anchors": ["keys.go:83-100 (DeleteKey)", "cipher.go:425-451 (FindKey)", "cipher.go:548-661 (Encipher)", "persistence.go:538-615 (ImportKeys)"]}
{"id": "C118", "title": "Messages stay in the order in which they were entered", "statement": "Of two stored messages that are both kept, the one that comes first in the store comes first after any further operations too.", "quantifier": "all stores, all histories of operations on messages and keys of any length", "why_tests_cant": "a statement about all histories; whether the order survives depends on which other messages are deleted, and when", "anchors": ["messages.go:320-338 (DeleteMessage)", "messages.go:120-164 (NewTextMessage)"]}
{"id": "C119", "title": "Making keys and messages comes to an end", "statement": "With settings that Assert accepts, GenerateKeys returns with probability one when the random source is uniform, however many keys are asked for and whichever are in the store; and so does reading a radiogram.", "quantifier": "all settings, stores, numbers of keys, keepers, radiograms and all streams of random words of any length", "why_tests_cant": "the ids are drawn at random until a free one is found: no finite number of runs shows that the drawing ends with probability one, nor that it never ends", "anchors": ["keys.go:44-81 (NewKey)", "keys.go:124-140 (GenerateKeys)", "messages.go:210-249 (ParseRadiogram)", "messages.go:279-289 (NewUniqueMessageId)", "crand/crand.go"]}
{"id": "C120", "title": "How the groups are written does not matter", "statement": "A received ciphertext is read the same whether its letters are written in groups or not, on one line or several, in capitals or small letters: TryDecipherPlainText has the same outcome, leaves the same instance, and makes the same message.", "quantifier": "all texts and all ways to write their letters, all instances and messages, with and without dry run", "why_tests_cant": "there are unlimited ways to write a text, and the claim compares the results of two runs for all of them", "anchors": ["cipher.go:741-796 (TryDecipherPlainText)"]}
{"id": "C121", "title": "What a ciphertext says depends on the letters of the keys only", "statement": "Two stations that have keys with the same ids and the same letters read every ciphertext alike, with the same outcome and the same message, whatever the order of their keys and whatever their marks, keepers, times and comments.", "quantifier": "all pairs of stores with the same ids and letters, all messages, ciphertexts of any length with any number of key changes", "why_tests_cant": "a statement about pairs of stores; tests use one arrangement of keys at a time", "anchors": ["cipher.go:663-731 (Decipher)", "cipher.go:741-796 (TryDecipherPlainText)", "cipher.go:460-468 (GetKey)"]}
{"id": "C122", "title": "How the recipients are named does not matter", "statement": "Encipher does the same, whichever way the recipients of a message are written down: in any order, with repetitions, in capitals or small letters.", "quantifier": "all instances, messages and pairs of lists which name the same stations if case is ignored", "why_tests_cant": "a statement about pairs of recipient lists of any length, over all stores and texts", "anchors": ["cipher.go:431-456 (FindKey)", "functions.go:91-118 (AllNeedlesInHaystack)", "cipher.go:548-661 (Encipher)"]}
{"id": "C123", "title": "The output file is of the kind asked for, and is written unless an error is reported", "statement": "keys --output f and messages --output f, if they report no error, have written the selected keys or messages to f. The file is what --type says (pdf, txt); without --type it is text if the name ends in .txt or .TXT and PDF otherwise. Any other type is refused.", "quantifier": "all stores, options, file names, selections and file systems", "why_tests_cant": "the file name and the selection are arbitrary; tests check one name per kind", "anchors": ["cmd/krypto431/keys.go:234-262", "cmd/krypto431/messages.go:170-198", "print.go:201-319"]}
{"id": "C124", "title": "A generated file key or salt is the only thing printed, and can be used", "statement": "pfk --generate-pfk prints one line and writes no file: the random bytes drawn with --random, else the key derived from the password (given, or entered twice) and the salt in force; weak passwords are refused; if it fails nothing is printed. --generate-salt prints the bytes drawn. The printed key given as --pfk is the key that the password and the same salt give.", "quantifier": "all passwords, salts, options, inputs at the prompt, and random bytes", "why_tests_cant": "a statement over all passwords and salts about the agreement of two commands", "anchors": ["cmd/krypto431/pfk.go:140-193 (generatePFK)", "cmd/krypto431/functions.go:157-190 (setSaltAndPFK)", "persistence.go:53-123, 166-189, 295-320"]}
{"id": "C125", "title": "The questions of initialize do what the options do", "statement": "Answering the questions of initialize has exactly the effect of giving the same values as options, on the file written and otherwise. The keepers entered are the words separated by commas and blanks, trimmed and in capitals.", "quantifier": "all answers, stores, file systems and random tapes", "why_tests_cant": "equality of two runs for every text entered; the prompts can not be driven from unit tests", "anchors": ["cmd/krypto431/initialize.go:15-194", "functions.go:170-184 (VettedKeepers)"]}
{"id": "C126", "title": "Turning runes into a string keeps every character", "statement": "string(runes), on which ids, listings and printouts depend, keeps every Unicode character in its place; anything that is not a character (half a surrogate pair, negative or too large numbers) becomes U+FFFD; nothing is lost or added. So a list of runes is kept exactly if it is the list of characters of some text.", "quantifier": "all lists of runes", "why_tests_cant": "there are 2^32 values of a rune and lists of any length", "anchors": ["cipher.go:458-475 (GetKey)", "keys.go:14-19, messages.go:97-102 (GoString)", "print.go:161-198 (KeysAsText, MessagesAsText)", "cmd/krypto431/keys.go:93-148"]}
{"id": "C127", "title": "Options given together are all carried out", "statement": "A keys command that reports no error has gone to the files once for each of --new, --import and --export that is given; a messages command that reports no error has saved the new message if --new is given, whatever other options are given.", "quantifier": "all combinations of options, stores, file systems and answers", "why_tests_cant": "every combination of options with every course of the questions and of the file system", "anchors": ["cmd/krypto431/keys.go:57-232", "cmd/krypto431/messages.go:57-180"]}
{"id": "C128", "title": "What has been deleted leaves no trace in the file", "statement": "Nothing about a deleted key or message but its absence can be learned from the store file written afterwards: if two store files are the same but for the letters, keepers, times, marks and comments of the keys to be deleted (or the contents of the messages to be deleted), then after `keys --delete` (`messages --delete`) everything written to the file is the same in both cases, whatever random letters were used to wipe the keys and messages in memory.", "quantifier": "for all pairs of stores that differ only in the items deleted, all lists of ids to delete, all random letters used for wiping, all file keys, and all failures of writing", "why_tests_cant": "This is a statement about pairs of runs: it cannot be seen from one run, and a test can only compare the few pairs of stores it makes up.", "anchors": ["keys.go:83-119", "messages.go:320-344", "persistence.go:325-403", "cmd/krypto431/keys.go:93-148", "cmd/krypto431/messages.go:72-127"]}
{"id": "C129", "title": "Importing a file again changes nothing", "statement": "Importing the keys of a file a second time, with the same filter and without permission to replace, imports no key and changes no key or message, whatever has been done to the store in the meantime, as long as no key has been deleted.", "quantifier": "for all files (also with repeated ids), all filters, all stores, and everything that may happen between the two imports", "why_tests_cant": "Idempotence is a statement about all files and all histories between the two imports; a test shows it for one file and one history.", "anchors": ["persistence.go:538-612", "keys.go:21-31"]}
{"id": "C130", "title": "Importing keys takes no mark off a key", "statement": "A key that is marked as used or as compromised is still marked after keys have been imported, so that an import never brings a spent pad back into use.", "quantifier": "for all stores, files, filters, options and answers of the user", "why_tests_cant": "The marks matter for every combination of stored and incoming keys and of options; a test tries a few.", "anchors": ["persistence.go:553-606", "cipher.go:431-456"]}
{"id": "C131", "title": "Keys are made as the help of keys says", "statement": "As the help texts say, the keys made by `keys --new n --valid d` do not expire within d days and are not compromised, and the keys made without --keepers are assigned to the own station.", "quantifier": "for all stores that can be loaded and written, all numbers of keys and of days, all dates and lists of keepers", "why_tests_cant": "A promise about every number of days and every list of keepers; a test tries a few, and the number that breaks it (above 365) is not a likely one to try.", "anchors": ["cmd/krypto431/krypto431.go:266-312", "cmd/krypto431/keys.go:150-165", "keys.go:46-73", "keys.go:121-141"]}
{"id": "C132", "title": "With --yes nothing is asked but passwords", "statement": "As the help texts say (\"answer yes and/or do not prompt except of PFK\", \"answer yes on all questions\", \"overwrite without asking\"), with --yes the course of keys, messages, pfk and initialize (what is read, written, printed and returned) does not depend on any answer to a selection, a confirmation or a prompt; only passwords and the text of a new message matter.", "quantifier": "for all options, disks, environments and all possible answers (also failing prompts)", "why_tests_cant": "Independence of the answers is a statement about pairs of runs with all possible answers at all places where something might be asked; a test tries a few places.", "anchors": ["cmd/krypto431/keys.go:93-263", "cmd/krypto431/messages.go:72-199", "cmd/krypto431/pfk.go:11-136", "cmd/krypto431/initialize.go:16-194", "persistence.go:325-403", "persistence.go:553-606", "cmd/krypto431/krypto431.go:106-114", "cmd/krypto431/krypto431.go:332-336"]}
{"id": "C133", "title": "Forced deletion deletes what the options select", "statement": "As the help texts say (\"Select all keys (list/edit/import/export/delete)\", \"Select all messages (list/print/delete)\"), keys --delete --yes and messages --delete --yes delete exactly the keys and messages that the options select: afterwards the file holds exactly the others, and everything else as before.", "quantifier": "for all files that can be loaded and written whose ids differ, and all combinations of selecting options", "why_tests_cant": "A statement about every combination of options and every store; tests try single options.", "anchors": ["cmd/krypto431/keys.go:39-148", "cmd/krypto431/messages.go:38-127", "cmd/krypto431/krypto431.go:279-330", "cmd/krypto431/krypto431.go:374-398"]}
{"id": "C134", "title": "Without the right key nothing is shown or changed", "statement": "If the file was written with a key that is neither given with --pfk nor follows from a password given or entered, then keys, messages and pfk --change end with an error, whatever else they are told to do; nothing has been printed and no file has been written. Likewise keys --import (without --delete and --new) changes nothing if the key of the file to import from is not provided.", "quantifier": "for all files, keys, passwords, options and environments", "why_tests_cant": "A statement about every wrong key and password and every combination of options; a test tries a handful of wrong keys.", "anchors": ["persistence.go:407-478", "cmd/krypto431/functions.go:157-180", "cmd/krypto431/keys.go:16-38", "cmd/krypto431/messages.go:25-37", "cmd/krypto431/pfk.go:28-45", "cmd/krypto431/keys.go:167-185"]}
{"id": "C135", "title": "The listings show exactly what is selected", "statement": "keys --list and messages --list print nothing if no item passes the filter. Otherwise they print one listing: it names the file, the call-sign and the numbers of keys and messages in the file, and below the heading has one line for each item that passes the filter, in the order of the file; the line begins with the id of the item.", "quantifier": "for all files that can be loaded, all filter options and all keys and messages", "why_tests_cant": "A statement about every store and every combination of filters; also the trimming of lines must never cut an id.", "anchors": ["cmd/krypto431/keys.go:206-231", "cmd/krypto431/messages.go:143-167", "keys.go:278-337", "messages.go:406-469"]}
{"id": "C136", "title": "Deleting the ids copied from a listing deletes exactly what was listed", "statement": "List keys or messages with any filter, then run the same command with --delete --yes and as --id the first words of the lines printed. The file then holds exactly the items that had not been listed, and everything else as before. Keys and messages can be listed again and printed to a file, and keys exported, by the copied ids with exactly the same effect as with the filter. This is the way to delete by criteria without being asked, which --delete --yes with the criteria themselves does not do (C133).", "quantifier": "for all files that can be loaded and written, all filter options, all keys and messages with printable ids", "why_tests_cant": "Two runs of the program are composed: the printed ids must survive padding, trimming, splitting at commas and blanks, and case folding, for every id and every filter.", "anchors": ["cmd/krypto431/keys.go:36-134", "cmd/krypto431/keys.go:206-231", "cmd/krypto431/messages.go:36-115", "cmd/krypto431/messages.go:143-167", "keys.go:278-337", "messages.go:406-469"]}
{"id": "C137", "title": "Deleting again deletes nothing", "statement": "keys --delete --yes --id and messages --delete --yes --id are idempotent: given once more with the same ids, after something has been deleted, they succeed, delete nothing and write no file.", "quantifier": "for all files that can be loaded and written, all ids given and all keys and messages with distinct ids", "why_tests_cant": "A statement about the composition of two runs for every store, including the order of keys that deletion leaves behind.", "anchors": ["cmd/krypto431/keys.go:93-147", "cmd/krypto431/messages.go:72-127", "keys.go:82-103", "messages.go:320-341"]}
{"id": "C138", "title": "However often the key is changed, the contents stay and only the last key opens the file", "statement": "After any number of successful runs of pfk --change on a file, with random keys, given keys and passwords in any order, the file holds the settings, call-sign, keys and messages it held at first; the last key opens it, no other key does, and no other file has been changed.", "quantifier": "for all stores, all finite sequences of runs of pfk --change and all keys", "why_tests_cant": "A statement about runs of any number and about every other key of 32 bytes.", "anchors": ["cmd/krypto431/pfk.go: managePFK", "persistence.go: Krypto431.Save, Krypto431.Load"]}
{"id": "C139", "title": "With the right key the file opens, whichever way the key is given", "statement": "If the file holds a store under a key, and the user gives that key by --pfk in hexadecimal form, or gives the password it is derived from (with the salt given by --salt or the default one) by --password, when asked, or as the old password of pfk --change, then the command opens the file and has the settings, call-sign, keys and messages in it, and has written and printed nothing so far.", "quantifier": "for all stores, keys, passwords and salts, and all ways of giving the key", "why_tests_cant": "A statement about every key, password and salt; tests try a few.", "anchors": ["cmd/krypto431/functions.go: setSaltAndPFK", "cmd/krypto431/pfk.go: managePFK", "persistence.go: Krypto431.SetPFKFromPassword, Krypto431.SetPFKFromString, Krypto431.SetSaltFromString, Krypto431.Load"]}
{"id": "C140", "title": "Success of pfk --change means that the key is changed, unless the user declined", "statement": "If pfk --change ends without error, then the file was loaded and either the user was asked and declined, and no file is touched; or the user agreed, and the file holds the settings, call-sign, keys and messages it held before under the new key asked for, no other key opens it, and no other file is changed.", "quantifier": "for all files, options, passwords and answers", "why_tests_cant": "The converse of a successful change: it concerns every run that reports success, with any combination of options and answers.", "anchors": ["cmd/krypto431/pfk.go: managePFK", "persistence.go: Krypto431.Save, Krypto431.Load"]}
