# Formal model of notmuch in Lean 4

Source modelled: `/repo` (notmuch at the pinned commit), read as text.  Every
definition of the model carries a comment citing the file and lines it models.

## Layout

* `lean/Verif/Base/…`   byte strings and list lemmas (no notmuch content).
* `lean/Verif/Model/…`  the model: one Lean module per C/C++ file (or part of it).
* `lean/Verif/Spec/…`   small specifications, written without looking at the model's helpers.
* `lean/Verif/Proofs/…` helper lemmas.
* `lean/Verif/Props/…`  the property theorems (named in `MANIFEST.json`), each followed by
  an `example` showing that a concrete non-trivial case meets its hypotheses.

## Modelling conventions

* A C string is a `List UInt8` without the byte 0 (the terminating NUL is implicit; theorems
  about C strings carry the hypothesis `0 ∉ s` only where it is needed).
* A function that mutates through pointers becomes one that returns the new value.
* Loops become structural recursion or recursion on a decreasing measure; no fuel is used
  unless stated in the comment of the definition.
* Out of memory, I/O errors and Xapian exceptions are explicit outcomes where a property speaks about
  them, and otherwise not modelled (listed below).
* Undefined behaviour (NULL dereference, use of an uninitialised variable) is a distinct outcome.
* Integers are `Nat`/`Int` unless the property is about the machine representation
  (bitmap, `flag_map`), where bytes / `BitVec` are used.

## Trusted base

* Lean 4.33's kernel; axioms at most `propext`, `Classical.choice`, `Quot.sound`.
* That the model reads the code correctly (no code is run here).
* External libraries are modelled by their documented contract: Xapian (documents are sets of
  terms and value slots, transactions are all-or-nothing), talloc/glib (allocation succeeds;
  `GHashTable` is a finite map iterated in arbitrary order), POSIX file operations (rename/link
  atomic), libc `ctype` in the C locale, zlib (lossless).

(The per-property plan follows; it is kept up to date with the model.)

## Plan per property

* **C01** Model hex_encode/hex_decode_internal as recursive functions on byte lists; induction.
* **C02** Same model; per-byte case analysis over all 256 bytes lifted by induction; injectivity from C01.
* **C03** Model the size computation separately from the writer; prove equality/inequality of lengths (on the error path the writer's prefix is modelled too).
* **C04** Independent inductive relation `Decodes s t`; prove decode s = some t iff the relation holds, none iff none exists.
* **C05** Model make/parse_boolean_term; round trip by induction on the quoted body.
* **C06** Model `needed`; compare with bytes written including NUL.
* **C07** Model parse_tag_line (strtok_len, in-place termination) and the dump line writer; induction on the tag list.
* **C08** Model dump and restore over an abstract database (id -> tag list); simulate restore over the list of dumped lines.
* **C09** As C08 for `#=` and `#@` lines.
* **C10** Model add/remove/remove_all on term sets and the apply loop; spec is 'last operation naming t'.
* **C11** Model makes_changes literally (backward scan, two loops).
* **C12** Model both rewritings as query ASTs with a set semantics; prove for infix, disprove for sexp with a witness.
* **C13** State machine {doc, db, frozen, modified}; invariant over op lists.
* **C14** State machine with revision/atomic_nesting/atomic_dirty and per-document lastmod; invariant.
* **C15** Same machine with committed/pending database; crash = drop pending.
* **C16** Model _new_maildir_filename with the 128-entry map; spec as set equation + sortedness.
* **C17** Compose the two synchronisations; uses C16.
* **C18** Structure theorem for the new name; idempotence.
* **C19** Model documents (id, thread, kind); linking; invariant: equal thread iff connected (EqvGen of edges).
* **C20** Model remove_message/delete; invariants.
* **C21** Model the three passes as parent assignment; forest by counting parents; termination by explicit measure.
* **C22** Model the sorted array and bsearch_first with indices; spec: membership.
* **C23** Model match_set and the iterator; induction on doc_ids.
* **C24** Bitmap model over UInt8 arrays; bit lemmas.
* **C25** Boolean query semantics over documents.
* **C26** Literal model with remaining-suffix lists; properties by induction.
* **C27** Model the backward scan that truncates at each '/'; spec through path components.
* **C28** Literal model; join/split; counterexample for the boundary check.
* **C29** Model sanitize_string and friends byte by byte; spec: same length, printable bytes unchanged, no control byte left.
* **C30** Model the hash loop and the comparison; equality modulo ASCII case implies equal hash, by induction.
* **C31** The query rewriting of `notmuch tag` for s-expressions as ASTs; proved for one change, refuted for more.
* **C32** Restore model with the `include` mask; frame theorem per kind of line.
* **C33** Model of the sup format writer/reader; induction on the tag list.
* **C34** Model of thread.cc's author/subject/date/tag accumulation; spec over the list of messages of the thread.
* **C35** Model of directory documents, file terms and add/remove; invariant over all histories, SHA1 collision-free on the paths used.
* **C36** Documents as sorted term lists, the one-pass reader with its forward-only iterator; prefix-freeness of the table.
* **C37** Property operations on documents as histories; composed with the string map of C22.
* **C38** `notmuch new` as a program over a file tree, a database and a log of changes; invariants over the recursion for all trees and every prefix of the log (crash or signal).
* **C39** Well-formedness and the trust in mtimes as invariants of every prefix of every run; histories of runs by induction, with a clock.
* **C40** The printers as state machines over calls; independent fuelled readers of JSON and Lisp; mutual induction over value trees.
* **C41** A file system with fsync, pending atomic directory changes and files that lose unsynced data; the command as a function of all system call results that logs every state; an invariant of all logged states.
* **C42** The scanner tables and the quoting loops as functions over bytes; grammars of tags, begin lines and data lines; induction over the text, and a lemma that pieces do not matter.
* **C43** The walk over the tree as a function with fuel that writes a log; the parts in view as an inductive relation; upper and lower bound by induction on the fuel with invariants of the state, noninterference by comparing two runs.
* **C44** The nodes as a heap with parent pointers; an invariant over all histories (one node holds the next number, and its ancestors were left at the child on the way to it); then the recursive walks.
* **C45** gzgets, the growing buffer and the loops; the lines by induction on the text; then quoting and an independent mboxrd reader.
* **C46** The loops with their counters over the iterators of C23 and C25, as a list of calls of the printers; JSON by C40; an independent reader for records and for lists of ids.
* **C47** The hash table as an association list; an invariant that gives it exactly, for every list of mailboxes; then the loops over trees and messages, and print_popular.
* **C48** Features as a set; parsing as a fold over lines, for all strings; the upgrade as a list of writes in a transaction with one invariant for each of its three phases; a world of handle, database and disk for thread ids.
* **C49** The scan of nested address lists is shown equal to a fold over their mailboxes; then the loop over the four headers by induction; threading by the theorems of C26 on the headers that the reply has.
* **C50** A small-step model of the function over inodes and paths, with another program as an adversary; an invariant for each program point, by induction over all interleavings.
* **C51** The string map of C22 represents a partial function; each loading step is shown to change the function as the specification says; the list loop is compared with a segmentation by strong induction.
* **C52** Big-step semantics (an inductive relation) written after the manual; the evaluator with fuel is proved sound by induction on fuel and complete by induction on derivations. Macro substitution: the meaning depends only on the closed form (all parameters put in place), by induction on derivations. Termination: induction on the rank of saved queries, then on the expression, with a logical relation on environments.
* **C53** An inductive grammar of command lines (Takes, Parses) in Spec; the parser is proved equal to it by induction on the arguments, using that in a good table one entry at most matches an argument.
* **C54** The tokeniser and all keyword setters are modelled; texts are given by an inductive grammar in Spec, and the calendar by a count of days; proofs go through what each item does to the parser state, an evaluation of create_output, and an inverse pair timegm/gmtime_r.
* **C55** Every function of notmuch-show.c that prints is modelled as a list of printer calls; values are built beside them and proved to have these calls, to fit a schema that is transcribed from devel/schemata, and to say what a specification of messages, parts and signatures demands; C40 gives the text.
* **C56** The function with strftime in the C locale is modelled over the zones of C54; texts are compared with the calendar of C54's specification, and a classifier of texts gives the inverse.
* **C57** The processors are modelled on the trees that the parser finds; a relation Says gives the manual's meaning, and equivalence is proved by induction on fuel and on derivations. The posting source is a state machine; its calls are specified by the first matching document.
* **C58** The command is modelled from its arguments to its output and status, with the option parser of C53; its number is compared with the length of the records of the model of notmuch search.
* **C59** main is modelled as a function from the argument vector to the events (configuration loaded, database opened how, command run) and the end of the process, on top of the option parser of C53.
* **C60** run_hook and the two commands around it are modelled as functions on a state; who holds what is recorded in a list of events.
* **C61** The command is modelled from loading the configuration to its output and the new state of files and databases; a theorem about set speaks of the configuration that the next command loads.
* **C62** The object is modelled with all its remembered fields, the document and what is stored; an invariant says that everything remembered is what the document says; one theorem about all sequences of calls against a message that is just sets of tags, properties and files.
* **C63** The object of C62 with its remembered fields; reindexing is modelled call by call on it; the terms after each step are described as a set, by induction over the files and over what the index adds; the command is an induction over the messages.
* **C64** The script is modelled function by function over the models of dump and tag --batch; the private index is shown to represent the database by an invariant over all histories (the cache is honest: it describes some earlier state, and only what has a later revision was changed); commit and checkout follow from the status.
* **C65** The function is modelled on term lists (the message objects of C62) and shown to refine the abstract threading of C19 step by step, with an invariant of the loop over the parents that also keeps the frame (all other documents); C19's theorems carry over to the real documents.
* **C66** The run is a sequence of states of a POSIX-like file system with unsynced changes; every state is classified (before, temporary file, removed, renamed) by lemmas on each phase, and the crash theorem follows from an invariant on the pending changes.
* **C67** The ignore list and relative paths are modelled on byte strings and put in place of the abstract predicate of the scan of C38; the count is a recursion with a duplicate-free list of counted files as its specification; the report is a fold over the log of changes, and the balance of messages is an invariant of the fold.
* **C68** The dialogue is a function of the lines of input, the changes are those of notmuch config (C61) one after another, and the configuration before and after is that of C51 and C61.
* **C69** The tree of nodes is made depth first with the state of the message; invariants over the traversal for keys, log and nodes, and an induction over the layers for the status of the message.
* **C70** A relation that lists what a call can do, shown to contain the function of the model; invariants over all schedules: lock and writers, revisions below the bound, snapshots, and the sequence of changes against the view of the writer.
* **C71** The days are counted by a next-day function, and the loops of timegm are summed and shown to grow by one with each day; strsep on memory with positions, by splitting at the first delimiter; getdelim by an invariant of block, length and position.
* **C72** The world is two forests: Python objects with parents and pointers, and library objects with owners. An invariant links them: below objects that were not destroyed, each pointer's owner is the pointer of an ancestor; so freeing a library object frees no memory of an object that is still safe.
* **C73** A mail is shown to be the list of its texts with prefixes; the words of each text lie at consecutive positions after a gap, so that consecutive positions lie in one text; prefixes are apart by C36.
* **C74** Every operation is a program of C62's calls; a Hoare logic over C62's invariant composes them, loops by induction over the operand.
* **C75** read is a machine over characters; that what it read does not change with more text is an induction, that parse-partial-sexp agrees with it is a simulation, and so going on with a partial parse is like starting over; that the machine reads what the reader of C40 reads is an induction over the text.
* **C76** the Emacs encoding is inverted by the decoder of C04 and has no blank, so that the line parser gives the changes back; the effect is that of C12; undo is an induction over the commands from the last, modulo the order of tags.
* **C77** the save is a trace of file system states; the invariant is that all but the fresh temporary file is as before or whole; the search for a free name ends by counting the files.
* **C78** an invariant ties each value to one object, owned by its wrapper, and each pointer to a value it was got from; messages not yet given out belong to their thread. Steps preserve it under the conditions.
* **C79** induction over the text for quoting, over the sequence of events for the database.
* **C80** the reader is a state machine; composition of texts, induction over the argument for escaping, over the options for the loop; the tokens determine the data.
* **C81** composed with the model of notmuch count --batch (Model/Count): induction over the searches for lines in and lines out; the table by arithmetic and a permutation; numbers by induction on the number of groups.
* **C82** specifications of each search by induction; a break is a split of the line; the part of the line after its leader gets shorter with each break; induction over steps for the loop.
* **C83** refinement: a map with distinct keys represents a function (C51); the dictionary is the sorted array without empty values; each operation simulates the specification, induction over histories; dictionaries with equal lookups are equal.
* **C84** mutual recursion over trees and lists of trees as in the code, with its stack of symbols; lines join by an invariant on the columns that have a bar; the depth and thread start read from a line are those of the preorder sequence, which determines the trees.
* **C85** mutual recursion over programs; the meaning of a program is a list of changes and an outcome, not looking at the database; execution agrees with it, by an invariant for open sections and one for closed databases.
* **C86** each replacement as a function on lists; members and pairs of dots of the results by induction; prefixes of a title keep no pair of dots; the number by induction over brackets from the right.
* **C87** ids and marks of all messages are kept by every command and only the hook sets a mark, when it notes its one call; invariants over histories; loops by induction on what is left of the buffer.
* **C88** each preference as a stable partition (with equal elements merged); sortedness by cost and stability by induction on the preferences.
* **C89** a predicate for what each pass leaves, by induction on the turns; the text with the gaps between its lines is kept by each pass; a text with all the predicates is not changed.
* **C90** the map after a path is what is left of the keys that begin with the path; each key as a step between paths; induction over what is typed; rows as chunks of the items.
* **C91** positions as sums of widths; the loop by induction over the lines after the one it starts at, the marker relative to the line; overlap in the specification is a common character.
* **C92** an evaluator that reads one word at a time with a frame per level of parentheses; a query in parentheses is one operand; without OR and XOR, A AND before the query goes through every step.
* **C93** the last place of a string before a position, by induction; two places of the string are not nearer than its length; the end of the tag as what is left after a run of characters.
* **C94** a state machine; invariants about file and variables over all events.

## What is modelled

Per module of the model: the definitions and the code each one models (from its comment).

### `Model/AddFile.lean`

* `File`: lib/sha1.c
* `MsgFile`: lib/message-file.c:29-41
* `opened`: lib/message-file.c:58-109
* `isMbox`: lib/message-file.c:122-136
* `parse`: lib/message-file.c:138-188
* `extendHeader`: lib/message-file.c:213-242
* `combinedHeader`: lib/message-file.c:244-275
* `freshHeader`: lib/message-file.c:291-316
* `getHeader`: lib/message-file.c:277-323
* `readAll`: lib/sha1.c:71-83
* `sha1OfFile`: lib/sha1.c:54-94
* `sha1OfString`: lib/sha1.c:31-43
* `getHeaders`: lib/message-file.c:325-402
* `genDoc`: lib/database.cc
* `genThread`: lib/add-message.cc:39-50
* `findId`: lib/database.cc:434-471
* `written`: lib/message.cc:1349-1377
* `threadOf`: lib/message.cc:592-606
* `ghostObject`: lib/message.cc:1472-1486
* `resolve`: lib/add-message.cc:80-124
* `mergeOne`: lib/add-message.cc:187-195
* `merge`: lib/add-message.cc:171-206
* `linkParent`: lib/add-message.cc:266-291
* `linkToParents`: lib/add-message.cc:215-302
* `finishThread`: lib/add-message.cc:449-454
* `headerValues`: lib/message.cc:1302-1330
* `indexAndWrite`: lib/add-message.cc:543-560
* `linkAndIndex`: lib/add-message.cc:531-560
* `addName`: lib/add-message.cc:516-529
* `inside`: lib/add-message.cc:486-560
* `endStatus`: lib/add-message.cc:573-579
* `indexFile`: lib/add-message.cc:463-593

### `Model/Address.lean`

* `Entry`: notmuch-search.c:70-74
* `sameName`: util/string-util.c:252-263
* `same`: notmuch-search.c:297-308
* `isDuplicate`: notmuch-search.c:312-357
* `processMailbox`: notmuch-search.c:421-438
* `processAddr`: notmuch-search.c:408-438
* `processList`: notmuch-search.c:400-440
* `processHeader`: notmuch-search.c:443-458
* `processMessage`: notmuch-search.c:605-624
* `popular`: notmuch-search.c:482-489
* `printPopular`: notmuch-search.c:473-498
* `printTable`: notmuch-search.c:506-515
* `address`: notmuch-search.c:859-926

### `Model/Alternative.lean`


### `Model/ArgTables.lean`

* `sharedOptions`: notmuch.c:59-69
* `sharedIndexingOptions`: notmuch.c:130-140
* `mainOptions`: notmuch.c:475-479
* `searchCommonOptions`: notmuch-search.c:781-794
* `searchOptions`: notmuch-search.c:802-821
* `addressOptions`: notmuch-search.c:869-888
* `showOptions`: notmuch-show.c:1337-1370
* `replyOptions`: notmuch-reply.c:725-746
* `countOptions`: notmuch-count.c:169-181
* `includeKeywords`: notmuch-dump.c:382-385, notmuch-restore.c:258-261
* `dumpOptions`: notmuch-dump.c:377-390
* `restoreOptions`: notmuch-restore.c:252-267
* `configOptions`: notmuch-config.c:609-612
* `compactOptions`: notmuch-compact.c:37-42
* `insertOptions`: notmuch-insert.c:488-497
* `newOptions`: notmuch-new.c:1136-1145
* `reindexOptions`: notmuch-reindex.c:102-106
* `tagOptions`: notmuch-tag.c:240-246

### `Model/Args.lean`

* `Kind`: command-line-arguments.h:20-50
* `processKeyword`: command-line-arguments.c:19-68
* `processBool`: command-line-arguments.c:70-90
* `processInt`: command-line-arguments.c:92-111
* `processString`: command-line-arguments.c:113-127
* `process`: command-line-arguments.c:255-264
* `nextArg`: command-line-arguments.c:214-217
* `afterName`: command-line-arguments.c:233-252
* `useEntry`: command-line-arguments.c:246-280
* `tryEntry`: command-line-arguments.c:225-281
* `tryOpt`: command-line-arguments.c:219-281
* `parseOption`: command-line-arguments.c:191-283
* `positionArg`: command-line-arguments.c:162-182
* `parseArguments`: command-line-arguments.c:285-316

### `Model/BlankLines.lean`


### `Model/Cli.lean`

* `Shared`: notmuch.c:55-57
* `Shared.init`: notmuch.c:55-57
* `Shared.write`: notmuch.c:59-69
* `boolVar`: command-line-arguments.c:70-90
* `keywordVar`: command-line-arguments.c:19-68
* `stringVar`: command-line-arguments.c:110-124
* `helpFor`: notmuch.c:328-360, notmuch.c:319-326, notmuch.c:340-345
* `processShared`: notmuch.c:82-103, notmuch.c:306-317
* `appendArg`: query-string.c:40-52
* `queryLoop`: query-string.c:40-52
* `queryString`: query-string.c:33-55

### `Model/Compact.lean`

* `Args.compactPath`: lib/database.cc:648
* `Args.backupPath`: lib/database.cc:653-661
* `Other`: lib/database.cc:663-667, lib/database.cc:668-673, lib/database.cc:679, a.c, lib/database.cc:683, w.h, lib/database.cc:691-696, lib/database.cc:698-703, lib/database.cc:705, lib/database.cc:706

### `Model/Compat.lean`

* `leapyear`: compat/timegm.c:23-27
* `monthlen`: compat/timegm.c:39-42
* `yearLoop`: compat/timegm.c:46-50
* `monthLoop`: compat/timegm.c:51-53
* `timegm`: compat/timegm.c:35-56
* `strsep`: compat/strsep.c:23-61
* `strcasestrLoop`: compat/strcasestr.c:33-40
* `strcasestr`: compat/strcasestr.c:27-42
* `needed`: compat/getdelim.c:86-91
* `finish`: compat/getdelim.c:116-117
* `getdelimLoop`: compat/getdelim.c:75-115
* `getdelim`: compat/getdelim.c:54-125
* `getlines`: compat/getline.c:25-29, notmuch-count.c:144

### `Model/Config.lean`

* `valuesLoop`: lib/config.cc:277-333
* `values`: lib/config.cc:277-301
* `getBool`: lib/config.cc:461-487
* `xdgDir`: lib/open.cc:43-72
* `configFile`: lib/open.cc:116-163
* `fromHome`: lib/open.cc:205-210
* `choosePath`: lib/open.cc:189-262
* `createPath`: lib/open.cc:275-310
* `Trial`: lib/open.cc:342-360
* `choosePathX`: lib/open.cc:362-393
* `expandPath`: lib/config.cc:385-401
* `loadDb`: lib/config.cc:238-270
* `absoluteKey`: lib/config.cc:421
* `loadFile`: lib/config.cc:403-459
* `dirDefault`: lib/open.cc:74-113
* `default`: lib/config.cc:613-664
* `loadDefaults`: lib/config.cc:666-692
* `openConfig`: lib/open.cc:395-404, lib/open.cc:558-584
* `setConfig`: lib/config.cc:57-91
* `getConfig`: lib/config.cc:110-138

### `Model/ConfigCmd.lean`

* `unescapeByte`: lib/config.cc:443-455
* `decode`: lib/config.cc:431-455
* `entriesOf`: lib/config.cc:431-433
* `World`: notmuch-config.c:330-380
* `configPath`: lib/open.cc:116-163
* `place`: lib/open.cc:189-262
* `xapianAt`: lib/open.cc:889-905
* `loadBase`: lib/open.cc:947-958
* `pathDefault`: lib/config.cc:623-630
* `allDefaults`: lib/config.cc:676-702
* `load`: lib/open.cc:911-993
* `getCommand`: notmuch-config.c:549-569
* `afterLastDot`: notmuch-config.c:489
* `validateFieldName`: notmuch-config.c:480-512
* `validItem`: notmuch-config.c:522-547
* `itemSplit`: notmuch-config.c:457-476
* `conffilePath`: notmuch-config.c:257-264
* `change`: notmuch-config.c:659-671
* `setDbCommand`: notmuch-config.c:571-603
* `setFileCommand`: notmuch-config.c:605-682
* `setCommand`: notmuch-config.c:605-682
* `builtWithLine`: notmuch-config.c:684-703
* `listLoop`: notmuch-config.c:711-717
* `listCommand`: notmuch-config.c:705-720
* `configCommand`: notmuch-config.c:722-760
* `notmuchConfig`: notmuch.c:556-604

### `Model/Coolj.lean`


### `Model/Count.lean`

* `Output`: notmuch-count.c:24-28
* `countNames`: notmuch-count.c:53-56
* `countMessagesFiles`: notmuch-count.c:46-60
* `countFiles`: notmuch-count.c:30-65
* `number`: notmuch-count.c:98-118
* `tail`: notmuch-count.c:120-125
* `printCount`: notmuch-count.c:67-131
* `lineText`: notmuch-count.c:143, notmuch-client.h:106-111
* `countLines`: notmuch-count.c:133-152
* `Opts`: notmuch-count.c:158-181
* `outputOf`: notmuch-count.c:170-173
* `optsOf`: notmuch-count.c:158-181
* `ended`: notmuch-count.c:227
* `run`: notmuch-count.c:206-227
* `countCommand`: notmuch-count.c:154-228

### `Model/Directory.lean`

* `Field`: lib/prefix.cc:30-77
* `skipTrailing`: lib/database.cc:1250-1252
* `findSlash`: lib/database.cc:1255-1260
* `skipMultiple`: lib/database.cc:1263-1264
* `splitPath`: lib/database.cc:1230-1277
* `leadingSlashes`: lib/database.cc:1387-1388
* `relativePath`: lib/database.cc:1372-1399
* `dbPath`: lib/database.cc:1198-1207
* `findTerm`: lib/database.cc:383-409
* `direntry`: lib/database.cc:1360, lib/directory.cc:187-189
* `directoryDoc`: lib/directory.cc:165-200
* `createDirectory`: lib/directory.cc:179-203
* `findOrCreate`: lib/directory.cc:111-217, lib/database.cc:1286-1311
* `findDirectoryId`: lib/database.cc:1286-1311
* `filenameToDirentry`: lib/database.cc:1335-1363
* `addTerm`: lib/message.cc:1508-1539
* `isMaildir`: lib/message.cc:790-794
* `folderOf`: lib/message.cc:823-829
* `addFolderTerms`: lib/message.cc:796-840
* `recursiveTerms`: lib/message.cc:867-875
* `addPathTerms`: lib/message.cc:846-887
* `parseDirentry`: lib/message.cc:911-914, 1113-1118
* `directoryPath`: lib/database.cc:1313-1323
* `addDirectoryTerms`: lib/message.cc:898-932
* `addFileTerms`: lib/message.cc:965-989
* `addFilename`: lib/message.cc:941-994
* `removeFileTerms`: lib/message.cc:1029-1041
* `removeFilename`: lib/message.cc:1006-1047
* `entryFilename`: lib/message.cc:1107-1140
* `getFilenames`: lib/message.cc:1078-1144, 1167-1178
* `findMessageByFilename`: lib/database.cc:1471-1527
* `termsWithPrefix`: lib/directory.cc:28-44
* `childFiles`: lib/directory.cc:264-285
* `childDirectories`: lib/directory.cc:287-308
* `deleteDoc`: lib/directory.cc:310-331
* `countFiles`: lib/message.cc:1183-1194
* `removeMessage`: lib/database.cc:1445-1469

### `Model/DocIdSet.lean`

* `DocIdSet`: lib/query.cc:46-49
* `word`: lib/query.cc:51-52
* `setAll`: lib/query.cc:551-554
* `init`: lib/query.cc:532-557
* `contains`: lib/query.cc:559-566
* `remove`: lib/query.cc:568-574

### `Model/Draft.lean`


### `Model/DumpFile.lean`

* `Exit`: notmuch-client.h:487-490
* `tempName`: notmuch-dump.c:297
* `cleanUp`: notmuch-dump.c:355-360
* `closeAndRename`: notmuch-dump.c:333-354
* `flushAndSync`: notmuch-dump.c:318-331
* `dumpTo`: notmuch-dump.c:278-362
* `backupName`: notmuch-new.c:1078-1085
* `maybeUpgrade`: notmuch-new.c:1057-1113

### `Model/DumpRestore.lean`

* `Include`: notmuch-client.h
* `dumpHeader`: notmuch-dump.c:70-91
* `dumpConfigLine`: notmuch-dump.c:38-58
* `dumpProps`: notmuch-dump.c:93-142
* `dumpTagWords`: notmuch-dump.c:170-193
* `dumpTags`: notmuch-dump.c:144-207
* `dumpSupWords`: notmuch-dump.c:144-207
* `dump`: notmuch-dump.c:209-272
* `dumpSup`: notmuch-dump.c:70-91
* `splitLines`: util/zlib-extra.c:26-74
* `isDelim`: notmuch-restore.c:33
* `setConfig`: lib/config.cc:57-92
* `processConfigLine`: notmuch-restore.c:27-58
* `findMsg`: lib/database.cc:437-471
* `addProp`: lib/message-property.cc:76-117
* `propsLoop`: notmuch-restore.c:88-117
* `processPropsLine`: notmuch-restore.c:60-122
* `tagMessage`: notmuch-restore.c:131-166
* `tokens`: notmuch-restore.c:212-224
* `parseSup`: notmuch-restore.c:173-228
* `propsStep`: notmuch-restore.c:352-358
* `configStep`: notmuch-restore.c:346-350
* `tagStep`: notmuch-restore.c:401-438
* `loop2`: notmuch-restore.c:383-443
* `skipLine`: notmuch-restore.c:360-363
* `loop1`: notmuch-restore.c:330-443
* `restore`: notmuch-restore.c:230-480

### `Model/ElAddress.lean`


### `Model/ElFilter.lean`

* `eval`: lib/query.cc:274-277

### `Model/ElParser.lean`

* `Reader`: lread.c

### `Model/ElTag.lean`

* `tagFile`: notmuch-tag.c:171-216
* `tagBatch`: notmuch-tag.c:171-216
* `runQuery`: notmuch-tag.c:119-169

### `Model/Fcc.lean`


### `Model/Fields.lean`

* `Flag`: lib/database-private.h:163-169
* `Field`: lib/prefix.cc
* `table`: lib/prefix.cc:39-85
* `Processor`: lib/prefix.cc:132-158
* `processorOf`: lib/prefix.cc:132-158
* `BinOp`: lib/database-private.h
* `Parser`: lib/prefix.cc:121-170, lib/open.cc:533-556, lib/parse-sexp.cc:680-693
* `thrown`: lib/query.cc:189-205
* `rethrow`: lib/thread-fp.cc:43-49, lib/sexp-fp.cc:34-37, lib/regexp-fields.cc:217-219
* `quoteText`: lib/regexp-fields.cc:229-234
* `regexpField`: lib/regexp-fields.cc:198-258
* `dateField`: lib/parse-time-vrp.cc:84-108
* `fieldQuery`: lib/prefix.cc:121-158
* `rangeField`: lib/parse-time-vrp.cc:71-82, lib/lastmod-fp.cc:72-83, lib/open.cc:544
* `combine`: lib/query.cc:190-194
* `both`: lib/query.cc:190-194
* `negate`: lib/database-private.h
* `build`: lib/query.cc:190-194
* `parseQuery`: lib/query.cc:190-194, lib/query-fp.cc:39
* `queryString`: lib/query.cc:182-212
* `Source`: lib/regexp-fields.h
* `Source.init`: lib/regexp-fields.cc:61-67
* `seek`: lib/regexp-fields.cc:108-112
* `Source.next`: lib/regexp-fields.cc:101-113
* `Source.skipTo`: lib/regexp-fields.cc:115-125
* `Source.check`: lib/regexp-fields.cc:127-134

### `Model/Filter.lean`

* `Row`: lib/index.cc:28-34
* `uuencode`: lib/index.cc:45-59
* `html`: lib/index.cc:79-86
* `next`: lib/index.cc:199-206
* `discard`: lib/index.cc:173-218
* `discardNew`: lib/index.cc:263-280
* `quote`: gmime-filter-reply.c:122-139
* `unquote`: gmime-filter-reply.c:140-165

### `Model/Git.lean`

* `tagOne`: notmuch-tag.c:119-169
* `tagBatch`: notmuch-tag.c:171-216

### `Model/Handles.lean`

* `Handle`: lib/database-private.h:213-302
* `Handle.load`: lib/open.cc:406-435
* `newXdb`: lib/open.cc:501-507, 862-872
* `ensureWritable`: lib/database.cc:471-485
* `newRevision`: lib/database.cc:487-502
* `openCall`: lib/open.cc:485-617, 690-740
* `closeCall`: lib/database.cc:504-529
* `destroyCall`: lib/database.cc:735-769
* `reopenCall`: lib/open.cc:841-887
* `resumeCall`: lib/open.cc:864-886
* `beginCall`: lib/database.cc:1110-1132
* `endCall`: lib/database.cc:1134-1179
* `putCall`: lib/message.cc:1392, 1659, 1694, 2117, lib/message.cc:1349-1377
* `removeCall`: lib/message.cc:1382-1428
* `setConfigCall`: lib/config.cc:59-91
* `findCall`: lib/database.cc:433-469

### `Model/Hello.lean`


### `Model/Hex.lean`

* `outputCharset`: util/hex-escape.c:28-29
* `escapeChar`: util/hex-escape.c:31
* `isOutput`: util/hex-escape.c:33-37
* `escapeByte`: util/hex-escape.c:85
* `encodeNeeded`: util/hex-escape.c:63-69
* `encode`: util/hex-escape.c:77-91
* `decodeRun`: util/hex-escape.c:98-130
* `decodeNeededLoop`: util/hex-escape.c:146-150
* `decodeInplaceRun`: util/hex-escape.c:132-138

### `Model/Hooks.lean`

* `Access`: hooks.c:48
* `Wait`: hooks.c:84-100
* `child`: hooks.c:71-82
* `runHook`: hooks.c:26-106
* `Scan`: notmuch-new.c:1252-1294
* `NewSys`: notmuch-new.c:1147-1187, notmuch-new.c:1206-1236, notmuch-new.c:1252-1294
* `newRest`: notmuch-new.c:1206-1322
* `newCommand`: notmuch-new.c:1115-1322
* `insertEnd`: notmuch-insert.c:609-618

### `Model/Insert.lean`

* `safeHostname`: notmuch-insert.c:51-65
* `tempfilename`: notmuch-insert.c:187-206
* `isValidFolderName`: notmuch-insert.c:93-106
* `maildirOf`: notmuch-insert.c:551-557
* `writeBuf`: notmuch-insert.c:244-262
* `copyRest`: notmuch-insert.c:298-302
* `copyFd`: notmuch-insert.c:268-306
* `mktemp`: notmuch-insert.c:213-242
* `writeTmp`: notmuch-insert.c:312-339
* `overwrite`: notmuch-insert.c:363
* `writeNew`: notmuch-insert.c:346-387
* `Status`: status.c:60-74
* `addDone`: notmuch-insert.c:443-460
* `addSync`: notmuch-insert.c:429-443
* `addFile`: notmuch-insert.c:401-464
* `statusToExit`: status.c:60-74
* `indexAndClose`: notmuch-insert.c:582-618
* `insertCommand`: notmuch-insert.c:546-619
* `mkdirRec`: notmuch-insert.c:113-154
* `createFolder`: notmuch-insert.c:161-181

### `Model/Jump.lean`


### `Model/Maildir.lean`

* `FlagTag`: lib/message.cc:64-77
* `inMaildir`: lib/message.cc:1721-1757
* `combinedFlags`: lib/message.cc:1761-1806
* `addTag`: lib/message.cc:1648-1719
* `flagsToTags`: lib/message.cc:1839-1873
* `actionsOfTag`: lib/message.cc:1900-1911
* `getActions`: lib/message.cc:1880-1926
* `FlagMap`: lib/message.cc:1955-1957
* `scanFlags`: lib/message.cc:1969-1989
* `setFlags`: lib/message.cc:1992-2000
* `clearFlags`: lib/message.cc:2001-2008
* `flagString`: lib/message.cc:2026-2034
* `allocSize`: lib/message.cc:2016-2018
* `newFlagMap`: lib/message.cc:1962-2008
* `newMaildirFilename`: lib/message.cc:1946-2042
* `syncFile`: lib/message.cc:2064-2105
* `tagsToFlags`: lib/message.cc:2044-2112

### `Model/Main.lean`

* `Mode`: notmuch-client.h:263-269
* `Command`: notmuch.c:36-41
* `configMode`: notmuch.c:164-167
* `newMode`: notmuch.c:168-171
* `writeMode`: notmuch.c:172-174
* `readMode`: notmuch.c:175-184
* `commands`: notmuch.c:164-219
* `findCommand`: notmuch.c:237-248
* `Created`: notmuch.c:517-534
* `Loaded`: notmuch.c:570-600
* `external`: notmuch.c:413-447
* `openEarly`: notmuch.c:510-552
* `loadConfig`: notmuch.c:554-602
* `runCommand`: notmuch.c:510-604
* `main`: notmuch.c:457-622
* `noCommand`: notmuch.c:389-424
* `minimalOptions`: notmuch.c:108-128
* `helpCommand`: notmuch.c:362-380

### `Model/Mbox.lean`

* `getlineLoop`: util/zlib-extra.c:43-72
* `getline`: util/zlib-extra.c:26-74
* `allLines`: notmuch-restore.c:321-341, 430
* `isFromLine`: notmuch-show.c:210-225
* `quoteLine`: notmuch-show.c:923-925
* `mboxLoop`: notmuch-show.c:922-926
* `formatMbox`: notmuch-show.c:886-933

### `Model/Message.lean`

* `World`: lib/message.cc:796-887
* `Handle`: lib/message.cc:28-60
* `create`: lib/message.cc:107-174
* `known`: lib/message.cc:410, 418
* `ensure`: lib/message.cc:344-452
* `invalidate`: lib/message.cc:454-498
* `addTermTo`: lib/message.cc:1507-1540
* `removeTermFrom`: lib/message.cc:1583-1616
* `removeTermsFrom`: lib/message.cc:699-725
* `sync`: lib/message.cc:1349-1377
* `syncUnlessFrozen`: lib/message.cc:1673, lib/message-property.cc:115
* `filename`: lib/message.cc:1126-1134
* `expand`: lib/message.cc:1106-1139
* `ensureFiles`: lib/message.cc:1078-1147
* `ensureProps`: lib/message.cc:2188-2218
* `getMessageId`: lib/message.cc:506-521
* `getThreadId`: lib/message.cc:592-606
* `getTags`: lib/message.cc:1261-1285
* `getFilename`: lib/message.cc:1149-1168
* `getFilenames`: lib/message.cc:1170-1181
* `countFiles`: lib/message.cc:1183-1194
* `isGhost`: lib/message.cc:1196-1216
* `ensureMaildirFlags`: lib/message.cc:1761-1806
* `hasMaildirFlag`: lib/message.cc:1821-1837
* `getProperty`: lib/message-property.cc:41-50
* `getProperties`: lib/message-property.cc:183-190
* `addTag`: lib/message.cc:1648-1680
* `removeTag`: lib/message.cc:1682-1713
* `removeTags`: lib/message.cc:2122-2133
* `removeAllTags`: lib/message.cc:2108-2140
* `modifyProperty`: lib/message-property.cc:78-121
* `removeAllProperties`: lib/message-property.cc:135-167
* `freeze`: lib/message.cc:2142-2154
* `thaw`: lib/message.cc:2156-2173
* `setTags`: lib/message.cc:1857-1870
* `flagsToTags`: lib/message.cc:1839-1873
* `addDirTerms`: lib/message.cc:796-887
* `addAllDirTerms`: lib/message.cc:898-932
* `removeFilename`: lib/message.cc:1006-1047
* `addFilename`: lib/message.cc:941-994
* `moveFile`: lib/message.cc:2081-2101
* `call`: lib/open.cc:841-887

### `Model/MessageId.lean`

* `skipComment`: lib/message-id.c:25-36
* `skipSpaceAndComments`: lib/message-id.c:12-40
* `collapse`: lib/message-id.c:88-91
* `parse`: lib/message-id.c:42-95
* `parseStrict`: lib/message-id.c:97-124
* `referencesLoop`: lib/add-message.cc:24-31
* `parseReferences`: lib/add-message.cc:13-38
* `parents`: lib/add-message.cc:231-262
* `messageId`: lib/message-file.c:355-384

### `Model/MessageSync.lean`

* `Term`: lib/prefix.cc
* `Db`: lib/database-private.h
* `newRevision`: lib/database.cc:487-502
* `writeDoc`: lib/message.cc:1349-1377
* `beginAtomic`: lib/database.cc:1110-1132
* `endAtomic`: lib/database.cc:1134-1179
* `reopen`: lib/open.cc:406-435
* `closeReopen`: lib/database.cc:504-529
* `Handle`: lib/message.cc:28-60
* `sync`: lib/message.cc:1349-1377
* `addTerm`: lib/message.cc:1507-1540
* `removeTerm`: lib/message.cc:1583-1616
* `tagMax`: lib/notmuch.h:50, lib/notmuch-private.h:112
* `call`: lib/message.cc:2144-2176, lib/message-property.cc:77-130
* `renameFile`: lib/message.cc:2079-2097

### `Model/Mime.lean`

* `encryptedContent`: gmime-multipart-encrypted.h, gmime-multipart-signed.h
* `Eff`: lib/database.cc:1579-1589
* `Decrypted`: util/crypto.h:32-36
* `insertKey`: lib/message.cc:326-346, lib/string-map.c:60-75
* `indexContentType`: lib/index.cc:352-364
* `indexableAsText`: lib/index.cc:383-398
* `repairMixedUp`: util/repair.c:76-153
* `legacyDisplay`: util/repair.c:25-63
* `protectedSubject`: util/crypto.c:193-209
* `potentialPayload`: util/crypto.c:147-219
* `successfulDecryption`: util/crypto.c:222-237
* `payload`: lib/index.cc:467-475, 620-628, 663-671
* `tryKeys`: util/crypto.c:43-78
* `cryptoDecrypt`: util/crypto.c:32-113
* `remember`: lib/index.cc:603-618
* `indexEncrypted`: lib/index.cc:567-635
* `indexPkcs7`: lib/index.cc:637-692
* `indexChildren`: lib/index.cc:441-478
* `bodyText`: lib/index.cc:517-558
* `attachmentTerms`: lib/index.cc:503-506
* `indexLeaf`: lib/index.cc:496-558
* `indexRepaired`: lib/index.cc:430-562
* `indexPart`: lib/index.cc:401-562
* `indexFile`: lib/index.cc:761-770
* `reindexKeys`: lib/message.cc:2276-2280

### `Model/MimeNode.lean`

* `Obj`: notmuch-client.h:334-395
* `openRoot`: mime-node.c:159-170
* `climb`: mime-node.c:478-480
* `setNext`: mime-node.c:481-482
* `number`: mime-node.c:461-484
* `child`: mime-node.c:436-487
* `showNode`: notmuch-show.c:673-862, 548-645, notmuch-reply.c:40-88
* `seekNode`: mime-node.c:489-508
* `seek`: mime-node.c:510-516
* `showPart`: notmuch-show.c:1027-1032

### `Model/Mua.lean`


### `Model/MuaSecure.lean`


### `Model/New.lean`

* `Kind`: notmuch-new.c:177-212
* `Outcome`: notmuch-new.c:376-437
* `Db`: lib/directory.cc:264-308
* `Db.addFile`: lib/directory.cc:111-217
* `Db.deleteDir`: lib/directory.cc:310-331
* `Env`: notmuch-new.c:335-363
* `special`: notmuch-new.c:242-246
* `resembleMaildir`: notmuch-new.c:221-241
* `skipDir`: notmuch-new.c:608-614
* `pass1`: notmuch-new.c:573-624
* `addFile`: notmuch-new.c:368-444
* `queueFiles`: notmuch-new.c:661-676
* `queueDirs`: notmuch-new.c:678-694
* `pass2`: notmuch-new.c:645-745
* `finish`: notmuch-new.c:749-785
* `scan`: notmuch-new.c:638-785
* `unchangedLeaf`: notmuch-new.c:526-552
* `entriesOf`: notmuch-new.c:554-560
* `addFiles`: notmuch-new.c:487-804
* `removeFilename`: notmuch-new.c:944-972
* `removeDirectory`: notmuch-new.c:977-1018
* `removeFilesLoop`: notmuch-new.c:1261-1272
* `removeDirsLoop`: notmuch-new.c:1275-1285
* `mtimesLoop`: notmuch-new.c:1287-1294
* `newCommand`: notmuch-new.c:1256-1294

### `Model/NewFront.lean`

* `setupIgnore`: notmuch-new.c:248-309
* `relativePath`: notmuch-new.c:311-331
* `inIgnoreList`: notmuch-new.c:333-364
* `dirString`: notmuch-new.c:616
* `countLoop`: notmuch-new.c:868-905
* `countFiles`: notmuch-new.c:852-915
* `hasFlag`: lib/message.cc:1821-1837
* `addTagIf`: lib/message.cc:1648-1677
* `addNewTags`: notmuch-new.c:389-401
* `tagsOfNew`: notmuch-new.c:382-404
* `tagsOfDuplicate`: notmuch-new.c:406-412
* `newTagsOk`: notmuch-new.c:1176-1188
* `countOp`: lib/add-message.cc:545-561, lib/message.cc:880-912, 1425-1460, notmuch-new.c:381, notmuch-new.c:955-969
* `resultsText`: notmuch-new.c:1040-1054

### `Model/Open.lean`

* `Feature`: lib/database-private.h:65-123
* `all`: lib/features.cc:3-37
* `name`: lib/features.cc:3-37
* `flags`: lib/features.cc:3-37
* `printFeatures`: lib/features.cc:39-51
* `featuresV0`: lib/database-private.h:302-305
* `featuresCurrent`: lib/database-private.h:313-316
* `findFeature`: lib/features.cc:92-99
* `addIncompat`: lib/features.cc:101-113
* `parseLine`: lib/features.cc:87-113
* `parseLoop`: lib/features.cc:86-114
* `parseFeatures`: lib/features.cc:67-117
* `currentVersion`: lib/database-private.h:336
* `getVersion`: lib/database.cc:777-804
* `loadThread`: lib/open.cc:413-424
* `loadRevision`: lib/open.cc:427-433
* `openDb`: lib/open.cc:509-538
* `needsUpgrade`: lib/database.cc:806-820
* `perMessage`: lib/database.cc:891-893
* `upgradeMsg`: lib/database.cc:944-970
* `upgradeStamp`: lib/database.cc:993-1019
* `upgradeThread`: lib/database.cc:1037-1073
* `upgradeMeta`: lib/database.cc:1081-1082
* `upgradeSteps`: lib/database.cc:926-1082
* `upgrade`: lib/database.cc:843-1109
* `create`: lib/open.cc:797-815
* `generateThreadId`: lib/add-message.cc:40-51

### `Model/PatchName.lean`


### `Model/PyAtomic.lean`

* `State`: lib/database-private.h
* `endAtomicPy`: lib/database.cc:1134-1179
* `abortPy`: Database.c, lib/database.cc:504-529

### `Model/PyCollections.lean`

* `rawTags`: lib/message.cc:1273-1280
* `clear`: MutableTagSet.c
* `clearProps`: PropertiesMap.c

### `Model/PyConfig.lean`

* `setItem`: lib/config.cc:59-90
* `listKeys`: lib/config.cc:359-367
* `clear`: MutableMapping.c

### `Model/PyObjects.lean`

* `World.element`: lib/query.cc:508, 674, lib/messages.c:109-118

### `Model/Query.lean`

* `typeTerm`: lib/prefix.cc:30
* `termsWithPrefix`: lib/database.cc:1529-1550
* `threadId`: lib/message.cc:591-604
* `Exclude`: lib/notmuch.h:1037-1042
* `Query`: lib/query.cc:27-37
* `mkQuery`: lib/query.cc:86-119
* `addTagExclude`: lib/query.cc:276-294
* `excludeTags`: lib/query.cc:311-324
* `searchDocuments`: lib/query.cc:340-467
* `getMessages`: lib/query.cc:493-523
* `searchMessages`: lib/query.cc:333-338
* `countDocuments`: lib/query.cc:698-760
* `countMessages`: lib/query.cc:690-694
* `hashThreads`: lib/query.cc:799-812
* `countThreads`: lib/query.cc:774-820
* `cleanupAuthor`: lib/thread.cc:183-232
* `Thread`: lib/thread.cc:34-55
* `addAuthor`: lib/thread.cc:80-120
* `addTag`: lib/thread.cc:305-310
* `messageExcluded`: lib/thread.cc:252-270
* `docAuthor`: lib/thread.cc:283-297
* `addMessage`: lib/thread.cc:239-315
* `setSubject`: lib/thread.cc:317-345
* `setMatch`: lib/thread.cc:385-391
* `addMatchedMessage`: lib/thread.cc:352-395
* `threadLoop`: lib/thread.cc:614-634
* `threadCreate`: lib/thread.cc:541-647
* `appendAuthor`: lib/thread.cc:138-148
* `authorsString`: lib/thread.cc:126-174
* `Threads`: lib/query.cc:54-64
* `searchThreads`: lib/query.cc:596-637
* `skip`: lib/query.cc:653-660
* `threadsValid`: lib/query.cc:645-663
* `threadsGet`: lib/query.cc:665-683
* `threadsNext`: lib/query.cc:685-689

### `Model/Reindex.lean`

* `Add`: lib/message.cc:1507-1540, lib/index.cc, lib/message.cc:1541-1572, lib/index.cc:427, 477, 609-646
* `Mail`: lib/message-file.c:325-395, lib/add-message.cc:217-298, lib/index.cc:727-768
* `removeIndexed`: lib/message.cc:728-785
* `link`: lib/add-message.cc:217-298
* `file`: lib/message.cc:2296-2333
* `loop`: lib/message.cc:2284-2334
* `finish`: lib/message.cc:2335-2350
* `rebuild`: lib/message.cc:2276-2350
* `reindex`: lib/message.cc:2235-2358, lib/filenames.c:40-47
* `cmdLoop`: notmuch-reindex.c:65-75
* `reindexQuery`: notmuch-reindex.c:42-82, lib/database.cc:514-517

### `Model/RelDate.lean`

* `maxLen`: notmuch-time.c:45
* `minute`: notmuch-time.c:42-44
* `recent`: notmuch-time.c:80-103
* `relativeDate`: notmuch-time.c:46-104
* `hoursOf`: notmuch-time.c:119-123
* `minutesOf`: notmuch-time.c:125-129
* `formattedSeconds`: notmuch-time.c:109-132
* `elapsed`: notmuch-time.c:134-140

### `Model/Reply.lean`

* `matchAddress`: notmuch-reply.c:92-106
* `matchOther`: notmuch-reply.c:123-131
* `addressMatch`: notmuch-reply.c:110-133
* `isUsers`: notmuch-reply.c:155-159
* `scanMailbox`: notmuch-reply.c:206-223
* `scanAddr`: notmuch-reply.c:197-223
* `scanList`: notmuch-reply.c:176-228
* `hasMailbox`: notmuch-reply.c:257-269
* `redundant`: notmuch-reply.c:233-274
* `getSender`: notmuch-reply.c:276-303
* `replyToMap`: notmuch-reply.c:336-344
* `recipientsLoop`: notmuch-reply.c:349-374
* `addRecipients`: notmuch-reply.c:326-386
* `guessFor`: notmuch-reply.c:394-405
* `domStep`: notmuch-reply.c:446-451
* `domainOf`: notmuch-reply.c:443-462
* `guessBy`: notmuch-reply.c:421-477
* `guessReceived`: notmuch-reply.c:489-514
* `fromInToHeaders`: notmuch-reply.c:526-550
* `createReply`: notmuch-reply.c:552-632

### `Model/Ruby.lean`

* `Kind`: bindings/ruby/init.c:52-68
* `Owner`: lib/thread.cc:274
* `Val`: lib/query.cc:52-53, lib/messages.c:50, 76, bindings/ruby/message.c:85-87, lib/messages.c:73-74
* `freeWrapper`: bindings/ruby/defs.h:130-134
* `wrap`: bindings/ruby/defs.h:115-128, 82-83
* `withObj`: bindings/ruby/defs.h:65-80
* `onObj`: lib/messages.c:99-100
* `threadMessages`: lib/thread.cc:274
* `newThread`: lib/query.cc:657-681
* `iterOver`: lib/messages.c:68-84

### `Model/Search.lean`

* `textPrefix`: sprinter-text.c:28-37
* `textStep`: sprinter-text.c:28-119
* `structured`: sprinter-json.c:180-183
* `startOffset`: notmuch-search.c:128-139, 553-564
* `below`: notmuch-search.c:148, 573
* `messagesLoop`: notmuch-search.c:572-577
* `threadsLoop`: notmuch-search.c:147-155
* `prepare`: notmuch-search.c:724-757
* `appendId`: notmuch-search.c:96-112
* `threadQuery`: notmuch-search.c:78-116
* `printTags`: notmuch-search.c:243-261
* `threadTags`: lib/thread.cc:720-747
* `threadDate`: notmuch-search.c:176-179
* `printThread`: notmuch-search.c:157-270
* `printFiles`: notmuch-search.c:585-592
* `printMessage`: notmuch-search.c:581-604
* `searchThreads`: notmuch-search.c:118-277
* `searchMessages`: notmuch-search.c:542-637
* `collectTags`: lib/messages.c:158-194
* `getAllTags`: lib/database.cc:1552-1571
* `searchTags`: notmuch-search.c:639-687
* `search`: notmuch-search.c:797-857

### `Model/SearchTag.lean`


### `Model/Setup.lean`

* `chomp`: notmuch-client.h:106-111
* `prompt`: notmuch-setup.c:137-146
* `askOld`: notmuch-setup.c:171-181
* `askMore`: notmuch-setup.c:183-187
* `tagListText`: notmuch-setup.c:90-103
* `dialog`: notmuch-setup.c:159-229
* `makeAbsolute`: notmuch-setup.c:23-44
* `parseTagLoop`: notmuch-setup.c:112-121
* `parseTagList`: notmuch-setup.c:105-124
* `setOne`: notmuch-config.c:387-392
* `setList`: notmuch-config.c:394-404
* `setPath`: notmuch-setup.c:199-201
* `edit`: notmuch-setup.c:162, 167, 188-192, 197-202, 210-217, 225-233
* `addGroup`: notmuch-config.c:283-286
* `addGroups`: notmuch-config.c:281-300
* `current`: notmuch-setup.c:159, 164, 171, 194, 204, 219
* `setupFile`: notmuch-setup.c:159-243
* `setupCommand`: notmuch-setup.c:126-243, notmuch-config.c:144-162
* `notmuchSetup`: notmuch.c:556-604

### `Model/Sexp.lean`

* `Flag`: lib/parse-sexp.cc:24-37
* `Prefix`: lib/parse-sexp.cc:55-60
* `prefixes`: lib/parse-sexp.cc:62-123
* `Query`: lib/parse-sexp.cc
* `Env`: lib/parse-sexp.cc:17-22
* `resolve`: lib/parse-sexp.cc:192-206
* `atomText`: lib/parse-sexp.cc:231-239
* `expandParam`: lib/parse-sexp.cc:220-230
* `expandTerm`: lib/parse-sexp.cc:208-240
* `parseWildcard`: lib/parse-sexp.cc:242-262
* `oneTerm`: lib/parse-sexp.cc:264-279, lib/parse-sexp.cc:159-190
* `findSlot`: lib/regexp-fields.cc:133-144
* `regexToQuery`: lib/regexp-fields.cc:160-196
* `parseRegex`: lib/parse-sexp.cc:281-310
* `queryExpand`: lib/query.cc:828-874
* `infixRes`: lib/parse-sexp.cc:333-354
* `namedRes`: lib/query-fp.cc:27-41
* `lastmodRange`: lib/lastmod-fp.cc:26-70
* `dateRange`: lib/parse-time-vrp.cc:28-69
* `starEmpty`: lib/parse-sexp.cc:535-553
* `rangeQuery`: lib/parse-sexp.cc:556-578
* `parseRange`: lib/parse-sexp.cc:516-578
* `evalAtom`: lib/parse-sexp.cc:593-628
* `bindParams`: lib/parse-sexp.cc:428-449
* `combine`: lib/parse-sexp.cc:131-157
* `evalPrefix`: lib/parse-sexp.cc:656-722
* `applySaved`: lib/parse-sexp.cc:486-491, lib/parse-sexp.cc:395-459
* `userPrefix`: lib/parse-sexp.cc:356-378
* `evalHead`: lib/parse-sexp.cc:642-725
* `eval`: lib/parse-sexp.cc:584-726
* `query`: lib/parse-sexp.cc:728-742

### `Model/Show.lean`

* `Sig.bad`: util/gmime-extra.c:197-201
* `Sig.error`: util/gmime-extra.c:203-207
* `Sig.good`: util/gmime-extra.c:191-195
* `Sig.statusString`: notmuch-show.c:410-423
* `Cert.fpr16`: util/gmime-extra.c:117-126
* `Cert.validUserid`: util/gmime-extra.c:87-115
* `errorBits`: notmuch-show.c:454-464
* `errorCalls`: notmuch-show.c:431-446
* `certCalls`: notmuch-show.c:496-532
* `sigErrorCalls`: notmuch-show.c:534-543
* `sigCalls`: notmuch-show.c:486-546
* `sigStatusCalls`: notmuch-show.c:469-549
* `extraCalls`: notmuch-show.c:228-249
* `headersCalls`: notmuch-show.c:251-315
* `Node`: mime-node.c
* `Info.isText`: notmuch-show.c:828-830
* `infoCalls`: notmuch-show.c:762-803
* `omittedCalls`: notmuch-show.c:644-666
* `partCalls`: notmuch-show.c:746-873
* `partsCalls`: notmuch-show.c:864-865
* `Decrypted`: util/crypto.h
* `Crypto`: util/crypto.h
* `openSlow`: mime-node.c:105-141
* `openFile`: mime-node.c:80-187
* `metaCalls`: notmuch-show.c:112-165
* `signedCalls`: notmuch-show.c:703-716
* `decryptedCalls`: notmuch-show.c:717-738
* `cryptoCalls`: notmuch-show.c:698-741
* `messageCalls`: notmuch-show.c:678-749
* `replyCalls`: notmuch-reply.c:676-689
* `joinTags`: notmuch-show.c:41-63
* `summary`: notmuch-show.c:66-84
* `textHeaders`: notmuch-show.c:601-621
* `partType`: notmuch-show.c:584-588
* `textBegin`: notmuch-show.c:584-599
* `textPart`: notmuch-show.c:552-642
* `textMessage`: notmuch-show.c:566-576
* `getFile`: notmuch-show.c:26-39
* `seek`: mime-node.c:400-425
* `formatPart`: notmuch-show.c:891-945, notmuch-show.c:947-1007
* `showMessage`: notmuch-show.c:1009-1052
* `shown`: notmuch-show.c:1082
* `showOne`: notmuch-show.c:1082-1090
* `showTree`: notmuch-show.c:1072-1103
* `showMessages`: notmuch-show.c:1054-1108
* `offsetOf`: notmuch-show.c:1168-1177
* `window`: notmuch-show.c:1185-1207
* `showThreaded`: notmuch-show.c:1153-1214
* `showAlone`: notmuch-show.c:1258-1275
* `showUnthreaded`: notmuch-show.c:1216-1279
* `showSingle`: notmuch-show.c:1111-1150
* `bytes`: sprinter-text.c:87-114
* `plan`: notmuch-show.c:1378-1487

### `Model/ShowBuf.lean`


### `Model/ShowCrypto.lean`

* `Env`: util/crypto.h
* `Msg`: util/crypto.h:42-66
* `noteSigs`: util/crypto.c:138-165
* `isControl`: util/crypto.c:170-184
* `notePayload`: util/crypto.c:168-219
* `noteDecryption`: util/crypto.c:222-237
* `tryKeys`: util/crypto.c:43-78
* `cryptoDecrypt`: util/crypto.c:32-113
* `Marks`: notmuch-client.h:360-380
* `decryptedSigs`: mime-node.c:299-313
* `stash`: mime-node.c:315-323
* `decryptNode`: mime-node.c:265-328
* `verifyNode`: mime-node.c:230-262
* `layer`: mime-node.c:388-421
* `shape`: mime-node.c:360-386
* `setUpOnce`: mime-node.c:356-433
* `setUp`: mime-node.c:356-433
* `childParts`: mime-node.c:445-460
* `walkList`: notmuch-show.c:856-857
* `walk`: mime-node.c:436-462, notmuch-show.c:673-862, mime-node.c:462-467
* `start`: mime-node.c:155-157
* `showBody`: notmuch-show.c:683-696
* `cryptoMap`: notmuch-show.c:698-742
* `shownSubject`: notmuch-show.c:264-268
* `indexesAgain`: notmuch-show.c:1023-1047

### `Model/Sprinter.lean`

* `Call`: sprinter.h:11-65
* `Frame`: sprinter-json.c:20-27, sprinter-sexp.c:40-46
* `St`: sprinter-json.c:7-18, sprinter-sexp.c:28-38
* `hex4`: sprinter-json.c:121
* `oct3`: sprinter-sexp.c:132
* `cstr`: sprinter-json.c:127-131
* `beginValue`: sprinter-json.c:31-49
* `beginAggregate`: sprinter-json.c:53-64
* `endAgg`: sprinter-json.c:78-89
* `escape`: sprinter-json.c:99-122
* `stringLen`: sprinter-json.c:96-124
* `mapKey`: sprinter-json.c:158-166
* `step`: sprinter-json.c:66-76, 126-155, 173-179
* `beginValue`: sprinter-sexp.c:50-67
* `beginAggregate`: sprinter-sexp.c:71-81
* `endAgg`: sprinter-sexp.c:95-106
* `escape`: sprinter-sexp.c:115-133
* `stringLen`: sprinter-sexp.c:108-135
* `keyword`: sprinter-sexp.c:147-166
* `step`: sprinter-sexp.c:83-93, 137-143, 168-199, 206-212
* `start`: sprinter-json.c:181-203, sprinter-sexp.c:214-238

### `Model/StringMap.lean`

* `Pair`: lib/string-map.c:30-33
* `Map`: lib/string-map.c:35-39
* `create`: lib/string-map.c:47-61
* `append`: lib/string-map.c:63-85
* `cmppair`: lib/string-map.c:87-98
* `sort`: lib/string-map.c:100-112
* `stringCmp`: lib/string-map.c:114-121
* `bsearchLoop`: lib/string-map.c:133-141
* `bsearchFirst`: lib/string-map.c:123-149
* `set`: lib/string-map.c:151-167
* `get`: lib/string-map.c:169-182
* `Iter`: lib/string-map.c:41-45
* `iterCreate`: lib/string-map.c:184-203
* `iterValid`: lib/string-map.c:205-217
* `iterNext`: lib/string-map.c:219-227
* `iterPair`: lib/string-map.c:229-245

### `Model/StringUtil.lean`

* `strtokLen`: util/string-util.c:29-39
* `splitScan`: util/string-util.c:51-56
* `strsplitLen`: util/string-util.c:41-63
* `sanitize`: util/string-util.c:73-94
* `isUnquotedTerminator`: util/string-util.c:96-100
* `needQuoting`: util/string-util.c:111-120
* `makeNeeded`: util/string-util.c:108
* `makeBufSize`: util/string-util.c:132-135
* `quoteBody`: util/string-util.c:158-162
* `makeBooleanTerm`: util/string-util.c:142-166
* `dequote`: util/string-util.c:207-219
* `parseTermBody`: util/string-util.c:196-243
* `parseBooleanTerm`: util/string-util.c:176-251
* `stripTrailing`: util/string-util.c:287-298
* `strcaseEqual`: util/string-util.c:266-270
* `strcaseHash`: util/string-util.c:272-286

### `Model/TagUtil.lean`

* `TagOp`: tag-util.c:8-11
* `tagMax`: lib/notmuch.h:1822
* `addTag`: lib/message.cc:1653-1683
* `removeTag`: lib/message.cc:1688-1718
* `applyLoop`: tag-util.c:297-313
* `lastOp`: tag-util.c:222-233
* `makesChanges`: tag-util.c:207-272
* `opListApply`: tag-util.c:274-332
* `illegalTag`: tag-util.c:37-52
* `chomp`: notmuch-client.h:106-111
* `ParseResult`: tag-util.h:35-50
* `parseTags`: tag-util.c:85-134
* `parseTagLine`: tag-util.c:54-152
* `parseTagArgs`: tag-util.c:154-187
* `opCond`: notmuch-tag.c:74-77
* `optimizeInfix`: notmuch-tag.c:41-87
* `optimizeSexp`: notmuch-tag.c:89-115
* `infixLeaf`: lib/regexp-fields.cc:198-258
* `sexpLeaf`: notmuch-tag.c:103-105
* `tagLoop`: notmuch-tag.c:155-163
* `tagQuery`: notmuch-tag.c:119-169

### `Model/TermList.lean`

* `prefixTable`: lib/prefix.cc:29-77
* `findPrefix`: lib/prefix.cc:85-98
* `userPrefix`: lib/prefix.cc:80-84
* `collect`: lib/database.cc:1541-1547
* `getTermsWithPrefix`: lib/database.cc:1529-1550
* `getTerm`: lib/message.cc:311-342
* `Metadata`: lib/message.cc:27-60
* `readGhost`: lib/message.cc:390-400
* `readList`: lib/message.cc:375-381, 406-427
* `readOne`: lib/message.cc:369-371, 384-387, 430-432
* `ensureMetadata`: lib/message.cc:344-452
* `removeTerms`: lib/message.cc:706-721
* `splitProperty`: lib/message.cc:2205-2211
* `propertyMap`: lib/message.cc:2199-2215
* `automaticTag`: lib/message.cc:763-765
* `removeIndexedTerms`: lib/message.cc:731-786
* `PropertyResult`: lib/message-property.cc:78-121
* `modifyProperty`: lib/message-property.cc:78-121
* `removeAllProperties`: lib/message-property.cc:135-167
* `messageProperties`: lib/message.cc:2189-2227

### `Model/ThreadTree.lean`

* `addReply`: lib/message.cc:606-611, lib/messages.c:46-57
* `viaInReplyTo`: lib/thread.cc:397-416
* `pass1`: lib/thread.cc:472-476
* `passFirst`: lib/thread.cc:484-497
* `labelLoop`: lib/message.cc:625-630
* `label`: lib/message.cc:619-631
* `labelAll`: lib/thread.cc:499-504
* `chooseParent`: lib/thread.cc:429-443
* `parentOrToplevel`: lib/thread.cc:418-455
* `pass3`: lib/thread.cc:506-516
* `tree`: lib/message.cc:656-690, lib/message.cc:639-652
* `links`: lib/thread.cc:457-516
* `resolve`: lib/thread.cc:457-523

### `Model/Threading.lean`

* `idMax`: lib/notmuch-private.h:122
* `refMax`: lib/notmuch-private.h:112, lib/prefix.cc
* `normId`: lib/database.cc:421-446, lib/message.cc:271-272
* `findMid`: lib/database.cc:434-471
* `Doc.thread`: lib/message.cc:570-585
* `genThread`: lib/add-message.cc:39-50
* `genDoc`: lib/database.cc
* `resolve`: lib/add-message.cc:80-124
* `merge`: lib/add-message.cc:171-206
* `linkParent`: lib/add-message.cc:266-291
* `linkParents`: lib/add-message.cc:215-302, lib/add-message.cc:28
* `finishThread`: lib/add-message.cc:449-454
* `addMessage`: lib/add-message.cc:463-580
* `intersects`: lib/message.cc:1416-1429
* `deleteMessage`: lib/message.cc:1377-1467
* `removeMessage`: lib/database.cc:1446-1469, lib/message.cc:1007-1047

### `Model/Time.lean`

* `Field`: parse-time-string.c:115-146
* `FieldSet`: parse-time-string.c:149-153
* `Err`: parse-time-string.h:28-39
* `State`: parse-time-string.c:186-197
* `State.init`: parse-time-string.c:1494
* `State.isSet`: parse-time-string.c:278-284
* `State.consume`: parse-time-string.c:220-240
* `setField0`: parse-time-string.c:299-321
* `validTime`: parse-time-string.c:386-426
* `userTz`: parse-time-string.c:821-835
* `parsePostponed`: parse-time-string.c:842-901
* `setField`: parse-time-string.c:299-321
* `setAll`: parse-time-string.c:431-475
* `setNow`: parse-time-string.c:329-344
* `addToField`: parse-time-string.c:348-368
* `postpone`: parse-time-string.c:249-266
* `Keyword`: parse-time-string.c:483-488
* `keywords`: parse-time-string.c:617-720
* `sameChar`: parse-time-string.c:757-762
* `matchGo`: parse-time-string.c:748-777
* `matchKeyword`: parse-time-string.c:742-778
* `findKeyword`: parse-time-string.c:791-805
* `badOrdinal`: parse-time-string.c:598-606
* `applyKeyword`: parse-time-string.c:493-613
* `parseKeyword`: parse-time-string.c:784-814
* `tmField`: parse-time-string.c:1267-1286
* `setTimestamp`: parse-time-string.c:905-928
* `singleNumber`: parse-time-string.c:931-944
* `isTimeSep`: parse-time-string.c:946-962
* `expandYear`: parse-time-string.c:966-976
* `dateFields`: parse-time-string.c:988-1035
* `parseDate`: parse-time-string.c:979-1048
* `parseTime`: parse-time-string.c:1051-1094
* `thirdGroup`: parse-time-string.c:1129-1133
* `parseNumber`: parse-time-string.c:1110-1146
* `parseDelim`: parse-time-string.c:1155-1170
* `parseInput`: parse-time-string.c:1176-1210
* `Round`: parse-time-string.h:42-47
* `initNow`: parse-time-string.c:1221-1248
* `fillNow`: parse-time-string.c:1338-1343
* `fixWday`: parse-time-string.c:1352-1368
* `fixAmpm`: parse-time-string.c:1289-1317
* `relField`: parse-time-string.c:163-169
* `epochValue`: parse-time-string.c:172-182
* `roundFields`: parse-time-string.c:1379-1416
* `fillWeek`: parse-time-string.c:1419-1425
* `toTm`: parse-time-string.c:1431-1439
* `weekTm`: parse-time-string.c:1451-1474
* `toInstant`: parse-time-string.c:1476-1488
* `createOutput`: parse-time-string.c:1320-1490
* `parseTimeString`: parse-time-string.c:1492-1510
* `dateStrings`: lib/parse-time-vrp.cc:27-69, lib/parse-time-vrp.cc:71-83
* `dateField`: lib/parse-time-vrp.cc:86-110

### `Model/TreeDraw.lean`


### `Model/Words.lean`

* `Msg`: lib/message.cc:28-60
* `fresh`: lib/message.cc:123-175
* `setupUser`: lib/prefix.cc:171-215
* `queryField`: lib/prefix.cc:202-209
* `databasePrefix`: lib/prefix.cc:103-119
* `genTerms`: lib/message.cc:1541-1574
* `combined`: lib/index.cc:296-302
* `indexAddr`: lib/index.cc:283-333, 345-353
* `indexAddrs`: lib/index.cc:335-354
* `indexUserHeaders`: lib/index.cc:703-726
* `indexEff`: lib/index.cc:366, 515, 563, 763
* `indexFile`: lib/index.cc:728-772
* `addFile`: lib/add-message.cc:508-510, 556
* `reindex`: lib/message.cc:2270-2330

## What is not modelled

* Xapian itself (posting lists, the query parser, stemming, weights, on-disk format), GMime (MIME parsing,
  decryption, header decoding), talloc, glib's main structures (their contracts are assumed where used), zlib.
* Exceptions thrown by Xapian at arbitrary points, running out of memory, and concurrent writers, except where a
  property speaks about them (the comment of the definition says so).
* The Emacs, vim, Python and Ruby front ends, bindings, shell completion, documentation.
* Files of `/repo` that no definition above cites.

## Axioms

Every theorem depends on a subset of `propext`, `Classical.choice`, `Quot.sound` (checked with `#print axioms` outside the
tree, and by `vcheck`).  There are no axioms of our own, no compiled evaluation and no unfinished proofs.

## How the theorems were tested

`seeded/LOG.jsonl` has one line per wrong program that was tried against the theorems: which definition was edited and
how, the claim it breaks, the theorems that failed and those that were tightened because of it.
