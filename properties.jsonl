{"id": "C01", "title": "hex escaping round-trips", "statement": "Hex-encoding any byte string (the form used in dump files) and hex-decoding the result, either into a fresh buffer or in place, succeeds and gives back exactly the original bytes.", "quantifier": "every NUL-free byte string of any length", "why_tests_cant": "infinitely many strings; a test samples a few tags", "anchors": ["util/hex-escape.c:hex_encode", "util/hex-escape.c:hex_decode", "util/hex-escape.c:hex_decode_inplace"]}
{"id": "C02", "title": "hex encoding is line/space safe and injective", "statement": "The hex encoding of a string consists only of the printable characters of the documented output set and '%' (so never a space, tab, newline, '(' or '\"'), and two different strings never encode to the same text.", "quantifier": "every NUL-free byte string / every pair of strings", "why_tests_cant": "needs all bytes in all positions", "anchors": ["util/hex-escape.c:hex_encode", "util/hex-escape.c:is_output"]}
{"id": "C03", "title": "hex buffers never overflow", "statement": "The buffer size computed by hex_encode is exactly the number of bytes it writes, and the size computed by hex_decode is never smaller than the number of bytes it writes, whether or not decoding succeeds.", "quantifier": "every input string, valid or malformed", "why_tests_cant": "a memory-safety bound over all inputs", "anchors": ["util/hex-escape.c:hex_encode", "util/hex-escape.c:hex_decode", "util/hex-escape.c:maybe_realloc"]}
{"id": "C04", "title": "hex decoding rejects exactly the malformed strings", "statement": "Hex decoding fails exactly when some '%' is not followed by two hexadecimal digits; when it succeeds every escape is replaced by the byte it names and everything else is unchanged, and the output is never longer than the input.", "quantifier": "every input string", "why_tests_cant": "needs every malformed string", "anchors": ["util/hex-escape.c:hex_decode_internal"]}
{"id": "C05", "title": "boolean query terms round-trip", "statement": "Quoting any term under a legal prefix with make_boolean_term and parsing it back with parse_boolean_term yields exactly the same prefix and term.", "quantifier": "every prefix without ':' not starting with white space, every NUL-free term", "why_tests_cant": "quoting bugs live in rare byte combinations", "anchors": ["util/string-util.c:make_boolean_term", "util/string-util.c:parse_boolean_term"]}
{"id": "C06", "title": "boolean-term buffer never overflows", "statement": "make_boolean_term never writes past the size it computed.", "quantifier": "every prefix and term", "why_tests_cant": "memory bound over all inputs", "anchors": ["util/string-util.c:make_boolean_term"]}
{"id": "C07", "title": "batch tag lines round-trip", "statement": "A line '+tag ... -- query' written with hex-encoded tags is parsed back by the batch-tag parser into exactly those tag additions, in order, and exactly that query.", "quantifier": "every list of tags (any bytes) and every query text that starts with a non-space byte and has no newline", "why_tests_cant": "combinatorial: tags starting with '-', empty, with spaces, quotes, '#', ...", "anchors": ["tag-util.c:parse_tag_line", "notmuch-dump.c:dump_tags_message"]}
{"id": "C08", "title": "dump then restore gives back every tag set", "statement": "Dumping a database in batch-tag format and restoring that file (without --accumulate) into any database that holds the same messages leaves every message with exactly the tags it had when dumped, whatever tags it had before the restore.", "quantifier": "every database content (message ids, tag sets), every prior tag state of the target", "why_tests_cant": "quantifies over all databases", "anchors": ["notmuch-dump.c:database_dump_file", "notmuch-restore.c:notmuch_restore_command"]}
{"id": "C09", "title": "dump then restore gives back every property and configuration item", "statement": "The same for message properties and for database configuration entries.", "quantifier": "every set of properties/config with legal keys and non-empty config values", "why_tests_cant": "quantifies over all databases", "anchors": ["notmuch-dump.c:dump_properties_message", "notmuch-dump.c:database_dump_config", "notmuch-restore.c:process_properties_line", "notmuch-restore.c:process_config_line"]}
{"id": "C10", "title": "tag operations apply in order; the last operation on a tag wins", "statement": "After applying a list of tag operations to a message, a tag is present iff the last operation naming it is an addition or, when none names it, it was present before (and --remove-all was not given).", "quantifier": "every initial tag set, every operation list, every flag combination", "why_tests_cant": "all interleavings of +t/-t", "anchors": ["tag-util.c:tag_op_list_apply", "lib/message.cc:notmuch_message_add_tag", "lib/message.cc:notmuch_message_remove_tag", "lib/message.cc:notmuch_message_remove_all_tags"]}
{"id": "C11", "title": "skipping 'no change' messages is sound", "statement": "When the check that decides whether a tag-operation list changes a message says no, applying the list would leave the tag set unchanged (so skipping is invisible except for the message's modification revision).", "quantifier": "every tag set, every operation list", "why_tests_cant": "all combinations", "anchors": ["tag-util.c:makes_changes"]}
{"id": "C12", "title": "query optimisation of 'notmuch tag' loses no message", "statement": "The rewritten query used by 'notmuch tag' selects, among the messages matching the user's query, every message whose tags the operations would change, and no message that does not match the user's query, if no tag begins or ends with a slash. (If one does this is false: 'notmuch tag +a/' skips messages tagged a, +/x/ those with a tag matching the regular expression x, and +/x fails.)", "quantifier": "every query, database and operation list, infix query syntax (C31 for s-expressions)", "why_tests_cant": "all combinations of operations and tag sets", "anchors": ["notmuch-tag.c:_optimize_tag_query", "notmuch-tag.c:_optimize_tag_query_infix"]}
{"id": "C13", "title": "freeze/thaw defers and then commits tag changes", "statement": "Between a freeze and the matching thaw no tag change of that message is visible in the database; after the matching (outermost) thaw all of them are; an unmatched thaw reports an error and changes nothing.", "quantifier": "every sequence of freeze/thaw/add/remove/remove-all calls", "why_tests_cant": "all nestings and histories", "anchors": ["lib/message.cc:notmuch_message_freeze", "lib/message.cc:notmuch_message_thaw", "lib/message.cc:_notmuch_message_sync"]}
{"id": "C14", "title": "modification revisions are monotone and mark every change", "statement": "The database revision never decreases; a message that is written gets a last-modification revision strictly greater than the committed revision before the write, and once no atomic section is open no message's revision exceeds the database revision.", "quantifier": "every history of writes and atomic sections", "why_tests_cant": "history property", "anchors": ["lib/database.cc:_notmuch_database_new_revision", "lib/database.cc:notmuch_database_begin_atomic", "lib/database.cc:notmuch_database_end_atomic", "lib/message.cc:_notmuch_message_sync"]}
{"id": "C15", "title": "atomic sections nest and commit all-or-nothing", "statement": "Only the outermost end of an atomic section commits; if the process dies or the database is closed before that, none of the changes made inside the section are present afterwards; an unmatched end reports an error; the whole section advances the revision by at most one.", "quantifier": "every nesting and every crash point", "why_tests_cant": "crash points x histories", "anchors": ["lib/database.cc:notmuch_database_begin_atomic", "lib/database.cc:notmuch_database_end_atomic", "lib/database.cc:notmuch_database_close"]}
{"id": "C16", "title": "maildir renames carry exactly the right flags", "statement": "When tags are synchronised to a maildir file name, the new name's flag set is the old one with the flags of the message's tags set and those of the absent tags cleared, all unrelated flags kept, in ASCII order without duplicates; names with unordered, repeated or non-ASCII flags are never renamed.", "quantifier": "every file name, every tag set", "why_tests_cant": "all flag strings", "anchors": ["lib/message.cc:_new_maildir_filename", "lib/message.cc:_get_maildir_flag_actions"]}
{"id": "C17", "title": "maildir flags and tags round-trip", "statement": "After a successful tags-to-flags synchronisation, a flags-to-tags synchronisation leaves the tags unchanged.", "quantifier": "every tag set, every list of well-formed maildir file names", "why_tests_cant": "all combinations", "anchors": ["lib/message.cc:notmuch_message_tags_to_maildir_flags", "lib/message.cc:notmuch_message_maildir_flags_to_tags", "lib/message.cc:_ensure_maildir_flags"]}
{"id": "C18", "title": "maildir renames stay in the maildir and keep the base name", "statement": "A tag-to-flag rename never changes anything before the last directory component, only ever moves new/ to cur/, and keeps the part of the file name before ':2,'; synchronising twice renames nothing the second time.", "quantifier": "every file name", "why_tests_cant": "all names, including ':2,' inside directory names", "anchors": ["lib/message.cc:_new_maildir_filename", "lib/message.cc:_filename_is_in_maildir"]}
{"id": "C19", "title": "threads are exactly the connected components of the reference graph", "statement": "After any sequence of message additions, two indexed messages are in the same thread iff they are connected through References/In-Reply-To links (through messages present or not yet received); hence the grouping does not depend on the order of arrival.", "quantifier": "every sequence of added messages, every header content, every hash-table iteration order", "why_tests_cant": "all arrival orders and graphs", "anchors": ["lib/add-message.cc:_notmuch_database_link_message", "lib/add-message.cc:_notmuch_database_link_message_to_parents", "lib/add-message.cc:_merge_threads", "lib/add-message.cc:_resolve_message_id_to_thread_id"]}
{"id": "C20", "title": "removing files and messages keeps the index consistent", "statement": "Removing one of several files of a message keeps the message; removing the last file removes the message from all searches; its thread stays joined while any real message of it remains and disappears completely (no ghosts left) otherwise; no other thread changes.", "quantifier": "every database state and history of additions and removals", "why_tests_cant": "history property", "anchors": ["lib/database.cc:notmuch_database_remove_message", "lib/message.cc:_notmuch_message_delete", "lib/message.cc:_notmuch_message_remove_filename"]}
{"id": "C21", "title": "thread trees are finite forests containing every message once", "statement": "The reply forest built for a thread never contains a message twice, its traversal terminates, it has at least one top-level message, and it contains every message of the thread.", "quantifier": "every set of messages with arbitrary (also cyclic or self-referential) In-Reply-To/References", "why_tests_cant": "cyclic and malicious headers", "anchors": ["lib/thread.cc:_resolve_thread_relationships", "lib/thread.cc:_parent_via_in_reply_to", "lib/thread.cc:_parent_or_toplevel", "lib/message.cc:_notmuch_message_label_depths"]}
{"id": "C22", "title": "string maps behave like multimaps", "statement": "Lookups in a string map return a value stored under exactly that key (and NULL iff there is none); iteration by key or key prefix visits exactly the matching pairs; set-then-get returns the value set and leaves other single-valued keys alone.", "quantifier": "every map content and history, every key/prefix", "why_tests_cant": "binary search boundaries", "anchors": ["lib/string-map.c:bsearch_first", "lib/string-map.c:_notmuch_string_map_set", "lib/string-map.c:_notmuch_string_map_get", "lib/string-map.c:_notmuch_string_map_iterator_create"]}
{"id": "C23", "title": "thread search partitions the matches", "statement": "Iterating over a thread search yields each thread with a matching message exactly once, ordered by its first match, and the matched-message sets of the returned threads partition the set of matching messages.", "quantifier": "every database, every match list", "why_tests_cant": "all interleavings of threads in the match list", "anchors": ["lib/query.cc:notmuch_query_search_threads", "lib/query.cc:notmuch_threads_valid", "lib/query.cc:notmuch_threads_get", "lib/thread.cc:_notmuch_thread_create"]}
{"id": "C24", "title": "document-id sets behave like sets", "statement": "Membership in the bitmap document-id set after construction from an array and any removals agrees with set membership, and no access is outside the bitmap.", "quantifier": "every array of ids, every history", "why_tests_cant": "bit arithmetic over all ids", "anchors": ["lib/query.cc:_notmuch_doc_id_set_init", "lib/query.cc:_notmuch_doc_id_set_contains", "lib/query.cc:_notmuch_doc_id_set_remove"]}
{"id": "C25", "title": "exclusion and counting agree with searching", "statement": "With excludes omitted the search result is exactly the matching mails without an excluded tag; with flagging, exactly the matching mails with the flag set iff an excluded tag is present; count equals the number of search results; a tag named in the query is never excluded.", "quantifier": "every database, query, exclude list and mode", "why_tests_cant": "all combinations", "anchors": ["lib/query.cc:_notmuch_query_search_documents", "lib/query.cc:_notmuch_query_count_documents", "lib/query.cc:notmuch_query_add_tag_exclude"]}
{"id": "C26", "title": "message-id extraction is total and sane", "statement": "Parsing References/In-Reply-To text terminates, never reads past the end, returns only non-empty ids without '>' and each well-formed '<id>' (no spaces or comments) of length at least two is extracted exactly; a message never references itself.", "quantifier": "every header text", "why_tests_cant": "adversarial header text", "anchors": ["lib/message-id.c:_notmuch_message_id_parse", "lib/message-id.c:_notmuch_message_id_parse_strict", "lib/add-message.cc:parse_references"]}
{"id": "C27", "title": "path: and folder: terms describe the file's location", "statement": "A message file in directory D is found by path:D, by path:A/** exactly for A = D and the ancestors A of D, by path:** always, and by folder:F exactly for F = D without a final /cur or /new.", "quantifier": "every directory path", "why_tests_cant": "all path shapes", "anchors": ["lib/message.cc:_notmuch_message_add_path_terms", "lib/message.cc:_notmuch_message_add_folder_terms"]}
{"id": "C28", "title": "paths split and re-join", "statement": "Splitting a relative path into directory and base name and joining them gives back the path; a path below the mail root is made relative to it and no path outside the root is.", "quantifier": "every path and root", "why_tests_cant": "all path shapes", "anchors": ["lib/database.cc:_notmuch_database_split_path", "lib/database.cc:_notmuch_database_relative_path"]}
{"id": "C29", "title": "string sanitising keeps meaning and removes control characters", "statement": "sanitize_string replaces every control character (and every line break) by a visible character or space, never changes the length or any other character of the remaining text, and its output contains no control character.", "quantifier": "every string", "why_tests_cant": "all byte strings", "anchors": ["util/string-util.c:sanitize_string"]}
{"id": "C30", "title": "case-insensitive hashing is consistent with case-insensitive equality", "statement": "Two strings that the case-insensitive comparison calls equal have the same hash, so a hash table keyed by addresses never stores two entries for one case-insensitive key.", "quantifier": "every pair of strings", "why_tests_cant": "all pairs", "anchors": ["util/string-util.c:strcase_equal", "util/string-util.c:strcase_hash"]}
{"id": "C31", "title": "tagging with an s-expression query tags every message", "statement": "'notmuch tag' with an s-expression query visits every message matching the query whose tags the operations would change.", "quantifier": "every query, database and operation list", "why_tests_cant": "all combinations", "anchors": ["notmuch-tag.c:_optimize_tag_query_sexp"]}
{"id": "C32", "title": "restore changes only what is included", "statement": "Whatever the input file, restore neither creates nor removes messages; it changes configuration, properties or tags only when --include names them.", "quantifier": "every input file (well formed or not), database and option set", "why_tests_cant": "all inputs", "anchors": ["notmuch-restore.c:notmuch_restore_command"]}
{"id": "C33", "title": "sup dumps round-trip", "statement": "Dumping in sup format and restoring gives every message its tags back, for ids and tags the format can express.", "quantifier": "every database", "why_tests_cant": "quantifies over all databases", "anchors": ["notmuch-dump.c:dump_tags_message", "notmuch-restore.c:parse_sup_line"]}
{"id": "C34", "title": "a thread's summary describes its messages", "statement": "For every thread of a thread search: the total counts, the tags and the authors are those of its messages; the matched count and matched authors those of the matching messages; unless excluded messages are only flagged, the oldest and newest dates are those of the oldest and newest match; and the subject is that of the newest match (of the oldest, when sorting oldest first) without a reply prefix.", "quantifier": "every database, query, exclude list and sort order", "why_tests_cant": "quantifies over all databases and threads", "anchors": ["lib/thread.cc:_thread_add_message", "lib/thread.cc:_thread_add_matched_message", "lib/thread.cc:_thread_set_subject_from_message", "lib/thread.cc:_resolve_thread_authors_string", "lib/thread.cc:_thread_cleanup_author"]}
{"id": "C35", "title": "the database knows exactly the files it was told about", "statement": "After every history of creating messages, adding and removing files, deleting messages and deleting empty directories, the file names of a message, the message found for a file name, the child files and child directories of a directory are exactly those of the files added and not removed since; removing a file says whether other files remain; notmuch_database_remove_message deletes the message exactly when its last file goes.", "quantifier": "every history of these operations with any paths (without SHA-1 collisions)", "why_tests_cant": "quantifies over all histories", "anchors": ["lib/message.cc:_notmuch_message_add_filename", "lib/message.cc:_notmuch_message_remove_filename", "lib/message.cc:notmuch_message_get_filenames", "lib/database.cc:notmuch_database_find_message_by_filename", "lib/database.cc:notmuch_database_remove_message", "lib/directory.cc:_notmuch_directory_find_or_create", "lib/directory.cc:notmuch_directory_get_child_files", "lib/directory.cc:notmuch_directory_get_child_directories", "lib/directory.cc:notmuch_directory_delete"]}
{"id": "C36", "title": "the terms of a document keep the fields apart", "statement": "No two fields of the prefix table (or user-defined headers without a colon in their name) give the same term for any values; reading a message's terms in one pass gives for every field exactly the values stored for it, whatever other terms the message has and whatever fields were read before; removing the terms of a field removes no others; reindexing keeps the id, the properties and the tags that indexing does not set itself.", "quantifier": "every set of terms and every state of the cache", "why_tests_cant": "quantifies over all documents", "anchors": ["lib/prefix.cc:prefix_table", "lib/prefix.cc:_user_prefix", "lib/message.cc:_notmuch_message_ensure_metadata", "lib/database.cc:_notmuch_database_get_terms_with_prefix", "lib/message.cc:_notmuch_message_remove_terms", "lib/message.cc:_notmuch_message_remove_indexed_terms"]}
{"id": "C37", "title": "message properties are a set of key/value pairs", "statement": "After any sequence of adding, removing, removing all of a key and removing all with a prefix, the properties of a message are exactly the pairs added and not removed since; get, count and iteration agree with them.", "quantifier": "every sequence of property operations on every message", "why_tests_cant": "quantifies over all histories", "anchors": ["lib/message-property.cc:_notmuch_message_modify_property", "lib/message-property.cc:_notmuch_message_remove_all_properties", "lib/message-property.cc:notmuch_message_get_property", "lib/message-property.cc:notmuch_message_count_properties", "lib/message.cc:_notmuch_message_ensure_property_map"]}
{"id": "C38", "title": "notmuch new finds what is there and removes only what is gone", "statement": "At every point of a run of 'notmuch new' (also when a signal, an error or a crash stops it) the database has every file it had before that is still in the mail store, and no file it did not have that is not mail in the mail store (ignored files, tmp of a maildir and .notmuch are not); a message whose file was renamed or moved keeps a file at every point; after a run without error the files of the database are exactly those of the mail store that are mail or were there before; the run ends when directories are not nested without bound.", "quantifier": "every file tree, database state, ignore setting, order of directory entries and moment of a signal", "why_tests_cant": "quantifies over all trees, databases and interruption points", "anchors": ["notmuch-new.c:add_files", "notmuch-new.c:add_file", "notmuch-new.c:remove_filename", "notmuch-new.c:_remove_directory", "notmuch-new.c:_entries_resemble_maildir", "notmuch-new.c:notmuch_new_command"]}
{"id": "C39", "title": "a skipped directory has nothing new", "statement": "The directory mtimes that 'notmuch new' records to skip directories are right after every history of runs, each stopped at any point, with changes of the mail store in between that give a changed directory a new mtime: a later run to the end always makes the database agree with the mail store, and a run after a stopped one gives what that would have given.", "quantifier": "every history of runs, crash points, clock values and changes of the mail store", "why_tests_cant": "crash points x histories x clock values", "anchors": ["notmuch-new.c:add_files", "notmuch-new.c:notmuch_new_command", "notmuch-new.c:_remove_directory", "lib/directory.cc:notmuch_directory_set_mtime"]}
{"id": "C40", "title": "structured output reads back", "statement": "Whatever tree of values is printed with the JSON printer, with any bytes in strings and names and separators anywhere, the output is a well-formed JSON text that reads as exactly that tree, so different trees are printed differently; the S-expression printer does the same for names it accepts and refuses all others; no string puts a raw control character into the output.", "quantifier": "every value tree and every series of calls that describes it", "why_tests_cant": "unbounded nesting, all bytes", "anchors": ["sprinter-json.c:json_begin_value,json_string_len,json_map_key,json_end", "sprinter-sexp.c:sexp_begin_value,sexp_string_len,sexp_keyword,sexp_end"]}
{"id": "C41", "title": "notmuch insert delivers completely or not at all", "statement": "For every series of short, interrupted or failing reads and writes, every failing system call, every answer of the library and every crash point, what is found in the maildir is what could have been found before, except in tmp, and except that the file of the new message in new (or where flag synchronization moved it) has the complete message (its mbox From line made a header if the first read did not cut it); on success the message is on disk for good and, without --keep, indexed, tagged and committed; on failure (other than wrong indexing options, or a failure after the file was moved) the mail store is as before; with --keep only a failed write makes it fail; a folder is refused iff a part of its name is '..', and otherwise the maildir is below the mail root; the file name has no slash or colon.", "quantifier": "every input, schedule of system call results, crash point, host name and folder name", "why_tests_cant": "all crash points with all losses of unsynced data", "anchors": ["notmuch-insert.c:maildir_write_new,maildir_write_tmp,copy_fd,write_buf,add_file,notmuch_insert_command,is_valid_folder_name,mkdir_recursive"]}
{"id": "C42", "title": "text filters drop only what they should", "statement": "Whatever the pieces in which the text of a part arrives: of an HTML part exactly the tags (quoted attribute values may contain '>') except their '<' are kept out of the index; of other text nothing is dropped unless it has a uuencode begin line, and then only the lines of data after such a line and one more character; a uuencoded file that starts on a line of its own is not indexed; a reply quotes the text line by line with '> ' and without carriage returns, and taking the quotes away gives the text back; all stay within the buffers they reserve.", "quantifier": "every text and every way to cut it into pieces", "why_tests_cant": "all byte strings and all piece boundaries", "anchors": ["lib/index.cc:filter_filter,uuencode_states,html_states", "gmime-filter-reply.c:filter_filter"]}
{"id": "C43", "title": "which parts are indexed and which keys are used", "statement": "With the decryption policies false, auto and nostash exactly the parts of a message and the cleartexts that the policy lets see are indexed (types, tags, filenames, text, properties); with true nothing but those that some key opens, and all that the secret keys open, except displays of protected headers. The secret keys are used only with nostash and true, and only for parts that no stashed session key opens; session keys are stashed only and always with true; with false or without options the result depends on no cleartext, with auto only on what the stashed keys open; indexing again with false leaves no session key. The protected subject of an encrypted message is indexed with true, and only then.", "quantifier": "every tree of parts, every decryption and verification function, every policy and set of session keys", "why_tests_cant": "all messages and all behaviours of the crypto engine", "anchors": ["lib/index.cc:_index_mime_part,_index_encrypted_mime_part,_index_pkcs7_part", "util/crypto.c:_notmuch_crypto_decrypt,_notmuch_message_crypto_potential_payload", "util/repair.c:_notmuch_repair_mixed_up_mangled,_notmuch_repair_crypto_payload_skip_legacy_display"]}
{"id": "C44", "title": "part numbers", "statement": "notmuch show prints every part of a message once, depth first, with the numbers 0, 1, 2, ...; notmuch show --part=n prints exactly the part that has the number n there, with its parts under the same numbers, and nothing when there is no such part. Whatever nodes are asked for in whatever order, a node has no number or the right one, and no number is given twice.", "quantifier": "every tree of parts, every n, every sequence of calls for children", "why_tests_cant": "all message structures and all call histories", "anchors": ["mime-node.c:mime_node_child,mime_node_seek_dfs,_mime_node_seek_dfs_walk", "notmuch-show.c:show_message,format_part_sprinter,format_part_text"]}
{"id": "C45", "title": "reading lines, and mbox output", "statement": "The lines read from a (possibly compressed) file without zero bytes are exactly the lines of its text, however long. notmuch show --format=mbox prints, for every list of messages whose files can be read, a text from which an mboxrd reader gets exactly these messages with the bytes of their files; it never ends when a file is damaged.", "quantifier": "every text, every buffer size, every list of messages", "why_tests_cant": "all file contents", "anchors": ["util/zlib-extra.c:gz_getline", "notmuch-show.c:_is_from_line,format_part_mbox"]}
{"id": "C46", "title": "what notmuch search prints", "statement": "notmuch search prints exactly the threads, messages, files or tags of the query that --exclude, --sort, --offset, --limit and --duplicate ask for, in the order of the search, as a JSON text or one per record; a negative offset counts from the end of the list that would be printed without it; subjects and authors cannot break the lines of the text output, and file names cannot break text0; the two queries printed with a thread name exactly its matched and its other messages.", "quantifier": "every database, query, set of options, file name, subject, author and message id", "why_tests_cant": "all databases and option values", "anchors": ["notmuch-search.c:do_search_threads,do_search_messages,do_search_tags,get_thread_query,_notmuch_search_prepare", "sprinter-text.c", "lib/messages.c:notmuch_messages_collect_tags"]}
{"id": "C47", "title": "what notmuch address prints", "statement": "With --deduplicate=no, notmuch address prints every mailbox of the headers asked for (of the senders by default), members of groups too, as often as it occurs and in order; by default every mailbox once, where it occurs first; with --output=count every mailbox once with the number of times it occurs; with --deduplicate=address every address once regardless of case, with the name it most often has (the first of these) and the number of times it occurs.", "quantifier": "every list of messages and headers, every nesting of groups, every set of options, every order of the hash table", "why_tests_cant": "all address lists and hash orders", "anchors": ["notmuch-search.c:is_duplicate,mailbox_compare,process_address_list,process_address_header,print_popular,print_hash_value,do_search_messages,notmuch_address_command", "util/string-util.c:strcmp_null,strcase_equal"]}
{"id": "C48", "title": "versions, features and upgrades", "statement": "For every features string a feature is on exactly if a line declares it, and a database is refused exactly if its version is newer or a line declares an unknown feature that the mode requires; what is written for a set of features reads back as this set; after an upgrade the database opens with its features and all current ones and needs no upgrade, every message id (also of a missing message) has the thread it had, every message its file names and every directory its modification time; an upgrade that fails or dies leaves the database as it was; thread ids are never given to two threads, over any history of new threads, commits, crashes and openings. Trying a failed upgrade again on the same handle does not convert the database but says so.", "quantifier": "every features string and version, every legacy database, every fault and crash point, every history of openings", "why_tests_cant": "all database contents, crash points and histories", "anchors": ["lib/features.cc:_notmuch_database_print_features,_notmuch_database_parse_features", "lib/open.cc:_finish_open,_load_database_state,notmuch_database_create_with_config", "lib/database.cc:notmuch_database_get_version,notmuch_database_needs_upgrade,notmuch_database_upgrade", "lib/add-message.cc:_notmuch_database_generate_thread_id"]}
{"id": "C49", "title": "notmuch reply", "statement": "For every message and configuration, a reply to all goes to everyone in Reply-To (From if there is none or a list put itself there), To, Cc and Bcc (also in groups) except the user, in order and in the header they were in; a reply to the sender goes to the first of these headers that has anyone but the user; the user is a recipient only if no one else is there, and the reply has a recipient if the message has an address; a reply to all reaches every address in Reply-To. The reply is always made and is from one of the user's addresses, chosen from the headers in a fixed order. Its subject starts with one Re:. When it is delivered, its parent is the original, which is also among its references, after those of the original.", "quantifier": "every message (any address lists and header texts) and configuration", "why_tests_cant": "all address lists, nested groups and header texts", "anchors": ["notmuch-reply.c:create_reply_message,add_recipients_from_message,scan_address_list,get_sender,reply_to_header_is_redundant,address_match,get_from_in_to_headers,guess_from_in_received_headers", "lib/add-message.cc:_notmuch_database_link_message_to_parents"]}
{"id": "C50", "title": "compaction", "statement": "At every crash point of notmuch_database_compact, whatever step fails and whatever programs that open, create or write the database do meanwhile, the old database is unchanged at its path or at the backup path, or a complete compacted copy is at the path with all that others wrote since; success means the copy is in place and the old database is at the backup path (or gone if none was given); if anything is at the backup path nothing is changed. Between the two renames there is no database at the path; and a second compaction (with a backup path) of a database made there in this moment makes the first delete everything while reporting success.", "quantifier": "every crash point, failure and interleaving with other programs, every database and backup path", "why_tests_cant": "schedules and crash points", "anchors": ["lib/database.cc:notmuch_database_compact_db,notmuch_database_compact,rmtree"]}
{"id": "C51", "title": "configuration", "statement": "The values of a configuration list are exactly the non-empty texts between its unescaped separators without white space at the ends, so written items are read back; the configuration file and the database are looked for in the documented order and a created database is the one opened next; after opening, every key has the value of the file, else of the database, else its default; a program reads what it set, and so does whoever opens the database later unless the file says otherwise, and no other key changes. Not so: an item ending in a backslash; database.path inside the database; NOTMUCH_DATABASE with another database.path in the file, where the handle names the wrong database and compaction replaces that one; a relative database.backup_dir.", "quantifier": "every list text, environment, file, metadata and key", "why_tests_cant": "every configuration and every combination of places", "anchors": ["lib/config.cc:notmuch_config_get_values_string,_notmuch_config_load_from_file,_notmuch_config_load_from_database,_notmuch_config_load_defaults,notmuch_database_set_config,_expand_path", "lib/open.cc:_choose_database_path,_create_database_path,_load_key_file,_xdg_dir,_choose_dir", "util/string-util.c:strsplit_len"]}
{"id": "C52", "title": "s-expression queries", "statement": "The query made of an s-expression finds exactly the messages that the expression means by the manual's rules (operators, fields, words and phrases, wildcards, regular expressions, ranges, matching, infix and named queries, saved queries and macros), one is made for every expression that has a meaning, and the meaning is unique; the use of a macro means its body with the arguments in place of the parameters; if no saved query uses itself every query is made or rejected, and if saved queries are in order and matching is in fields nothing crashes, so exactly the expressions without meaning are rejected. Not so: saved queries that use themselves; matching outside a field; a saved query that is an atom or empty; a named query that does not parse; starts-with with capital letters in tags; parameters inside matching, date and others; the manual's example of matching two distinct messages; ranges from the beginning and messages without date.", "quantifier": "every s-expression, set of saved queries, field definitions and set of messages", "why_tests_cant": "every expression and every nesting of saved queries", "anchors": ["lib/parse-sexp.cc:_sexp_to_xapian_query,_sexp_combine_query,_sexp_parse_range,maybe_apply_macro,maybe_saved_squery,_sexp_expand_term,_sexp_expand_query", "lib/lastmod-fp.cc:_notmuch_lastmod_strings_to_query", "lib/parse-time-vrp.cc:_notmuch_date_strings_to_query", "lib/regexp-fields.cc:_notmuch_regexp_to_query", "lib/query.cc:_notmuch_query_expand"]}
{"id": "C53", "title": "Command line options", "statement": "A command line is understood exactly as its grammar says: options --name=value, --name:value, --name value (not for booleans), --name, --no-name (booleans and flags), in any number, until -- (dropped) or the first word that is no option; each sets its variable and no other, what is left are the last arguments, unchanged and in order, and anything else is an error; '=' and ':' (and a space, where a value is taken) are the same; whatever can be set can be written down; ints are taken for what they are. The tables of all commands meet the conditions. Not so: dump and restore --include with an unknown keyword reads beyond the end of an array; numbers beyond 32 bits are taken for others.", "quantifier": "every table whose names are distinct, without separators and not ambiguous when negated, and every list of arguments", "why_tests_cant": "every list of arguments and every value", "anchors": ["command-line-arguments.c:parse_arguments,parse_option,parse_position_arg,_process_keyword_arg,_process_boolean_arg,_process_int_arg,_process_string_arg", "notmuch.c:notmuch_shared_options,notmuch_shared_indexing_options", "notmuch-dump.c:notmuch_dump_command", "notmuch-restore.c:notmuch_restore_command"]}
{"id": "C54", "title": "Dates and times in queries", "statement": "date:D, with D a day written in any accepted way, finds the messages of that day in local time and no others; date:A..B those from the first day to the last; one side may be left out; date:M, with M a month, those of the month; a date with a time of day (12 or 24 hour clock, with or without a zone) is that second, or that minute; N units ago, in any number of amounts and in any order, is that long before now on the calendar, rounded to the finest unit given; a weekday is the last one; @seconds is that second; the beginning of a range is never after its end; the rounded end is the rounded beginning of what follows, less a second; upper and lower case are the same but for a lone M. Not so: a.m. and p.m. are never understood; 2023-02-31 is 2023-03-03; 'mon' is not a month but a weekday; a month before March 31 is in March; sums of amounts overflow an int; the second before 1970 is an error; an open beginning leaves out messages without a date.", "quantifier": "every text of the grammar, every time of query, every fixed offset of the local zone (and every zone for what does not depend on it)", "why_tests_cant": "every text, every moment and every zone", "anchors": ["parse-time-string/parse-time-string.c:parse_time_string,parse_input,create_output,preprocess_keyword,parse_postponed_number,parse_date,parse_single_number,kw_set_rel,kw_set_abs,kw_set_month,kw_set_day,kw_set_timezone", "lib/parse-time-vrp.cc:_notmuch_date_strings_to_query,date_specialized"]}
{"id": "C55", "title": "notmuch show", "statement": "The JSON and S-expression output of notmuch show is one well-formed value that fits devel/schemata: a list of threads (those from --offset on, counted from the end if it is negative, and no more than --limit), each the list of its toplevel messages with their replies, nested as in the thread, null where a message is not shown. A message is shown if it matches, unless it is excluded and --exclude=true, or if whole threads are shown. Every message has its ID, flags, tags, all its file names, its headers, and its parts numbered depth-first; text is included, HTML only on request, and of other parts the length; signatures are said to be good only if they are neither bad nor with errors, and only then and with a valid identity is the signer named. It is read from the first file that can be opened, or from the one --duplicate asks for. --part=n prints the part that has that number in the full output. The command fails just if a message that is to be shown cannot be read. In text format, the depth is the number of shown messages above. The structured output of notmuch reply fits its schema. Not so: a message whose files are gone leaves a node without null; --unthreaded nodes have no list of replies; show.extra_headers can repeat a name, or end S-expression output; the text format names the wrong file; raw output fails if the first file is gone; --part=n beyond the end succeeds with no output.", "quantifier": "every forest of messages and threads, every tree of parts, every set of headers, signatures and files, every offset, limit and option", "why_tests_cant": "unbounded trees, any bytes, any set of missing files", "anchors": ["notmuch-show.c:format_message_sprinter,format_headers_sprinter,format_part_sigstatus_sprinter,format_part_sprinter,format_part_text,format_part_raw,show_message,show_messages,do_show_single,do_show_threaded,do_show_unthreaded,notmuch_show_command", "mime-node.c:mime_node_open", "util/gmime-extra.c", "notmuch-reply.c:notmuch_reply_command", "devel/schemata"]}
{"id": "C56", "title": "Relative dates and elapsed time", "statement": "notmuch search and notmuch show print the date of a message relative to now, and by the calendar days of the local zone: in the last hour the whole minutes since then, on the same day 'Today hh:mm', the day before 'Yest. hh:mm', two to six days ago the day of the week and the time, from seven days to 180 days ago the month and the day, before that yyyy-mm-dd, which a date: query reads as just that day; later than now 'the future'. There is always such a text and it fits the buffer of 20 bytes. Two messages with the same text at the same time are of the same day, and of the same minute if that is less than a week ago, or as many minutes old. notmuch new prints hours, minutes and seconds that add up to the whole seconds it took. Not so where the clocks are changed: on a day of 25 hours a message of the day itself can be shown as 'October 27', and after a day of 23 hours a message of eight days ago as 'Yest. 23:50'.", "quantifier": "every time, every offset of the local zone, every time now", "why_tests_cant": "all times", "anchors": ["notmuch-time.c:notmuch_time_relative_date,notmuch_time_print_formatted_seconds,notmuch_time_elapsed"]}
{"id": "C57", "title": "What the fields of a query mean", "statement": "A query text is accepted if and only if notmuch-search-terms(7) gives it a meaning, and then it finds exactly the messages that it means: id: and property: the exact value; tag:, is:, mid:, path: and folder: the exact value, but for one slash at its end, or with /x/ the regular expression x; from: and subject: words, a phrase unless in parentheses or ending with *, with /x/ the regular expression on the whole header, with an empty text messages without the header; thread: the thread, and thread:{Q} the threads of the messages that Q finds; query: the saved query; sexp: the s-expression (C52); date: and lastmod: the time or revision (C54); and, or, not, xor what they say. If something in it has no meaning (a regular expression that does not compile or end, a brace that is not closed, a date that is not understood) the whole query fails with NOTMUCH_STATUS_XAPIAN_EXCEPTION: no part is left out. tag:x and (tag x), and tag:/x/ and (tag (rx x)), find the same messages. The posting source of a regular expression gives exactly the matching documents, in order, however next, skip_to and check are called. Not so: tag:a/ finds the tag a; no tag that begins with a slash can be asked for; thread: with an empty text is an uncaught exception; a saved query that uses itself has no end; query: with a name that does not exist finds nothing without an error.", "quantifier": "every text that Xapian's parser splits into fields and operators, every database, every sequence of calls of the posting source", "why_tests_cant": "all queries and databases", "anchors": ["lib/regexp-fields.cc:RegexpFieldProcessor::operator(),_notmuch_regexp_to_query,RegexpPostingSource", "lib/thread-fp.cc:ThreadFieldProcessor", "lib/query-fp.cc:QueryFieldProcessor", "lib/sexp-fp.cc:SexpFieldProcessor", "lib/parse-time-vrp.cc:DateFieldProcessor,ParseTimeRangeProcessor", "lib/lastmod-fp.cc:LastModRangeProcessor", "lib/prefix.cc:prefix_table,_setup_query_field", "lib/query.cc:_notmuch_query_string_to_xapian_query"]}
{"id": "C58", "title": "notmuch count", "statement": "For a query, `notmuch count` prints the number of records that `notmuch search --format=text0` prints for it with the same --output and --exclude, in whatever order (with --output=files: of file names), then with --lastmod the UUID and revision, and a newline. The query is the words after the options, joined with single blanks; none is the query for everything. With --batch it does for each line of its input (or of the file given with --input) what it would do for that line as a query, one after another, until one is no query. A text that is no query gives status 1 and prints nothing, and so does a --uuid that is not that of the database, or words together with --batch. Not so: without s-expression support --query=sexp destroys a query that was not made; a line of a batch that begins with NUL makes the command read before the line.", "quantifier": "every list of options and words, every input, every database and query", "why_tests_cant": "all inputs, queries and databases", "anchors": ["notmuch-count.c:notmuch_count_command,print_count,count_files,count_file", "query-string.c:query_string_from_args", "lib/query.cc:notmuch_query_count_messages,notmuch_query_count_threads", "notmuch-client.h:chomp_newline"]}
{"id": "C59", "title": "Which command is run, with what database", "statement": "The first word after the shared options names the command. search, address, show, count and reply get a database open for reading only; insert, tag, dump, restore, compact and reindex one open for writing; new one that it makes or else opens for writing; setup and config the configuration; if the database cannot be opened the command is not run, and the status is 1. Any other name is run as the program notmuch-NAME with the same arguments, told of the configuration file asked for, and the database is not touched. Whatever the arguments: the database is not made or opened for writing unless the command is one that writes; at most one command is run, the one named, and its end is the end of the process. --version and --help do nothing else, wrong options give status 1. The options that all commands share may be given before or after the name. Not so: without a configuration `notmuch config` does nothing and exits with success.", "quantifier": "every argument vector, every environment, every behaviour of the library and of the commands", "why_tests_cant": "all argument vectors", "anchors": ["notmuch.c:main,commands,find_command,notmuch_command,_help_for,notmuch_help_command,notmuch_process_shared_options,try_external_command"]}
{"id": "C60", "title": "Hooks", "statement": "A hook that does not exist, or that was run and exited with 0, is fine; a hook that may not be run, cannot be run, exits with another status or is killed is an error. While a hook runs, `notmuch new` does not hold the database open for writing, so that the hook can use notmuch. If pre-new fails, the mail is not scanned, post-new is not called and the status is 1; else the scan finds what the hook left, and post-new is called after the database is closed, just if the scan was without error and not interrupted. The status is 0 (75 if files vanished) just if all of this was fine, else 1. --no-hooks: none is called. post-insert is called, with the database closed, just if the message was inserted; what it does has no effect on the status. Not so: that closing the database (which commits the last changes) failed is not noticed.", "quantifier": "every hook behaviour, every outcome of system calls, every scan result", "why_tests_cant": "all behaviours of hooks and system", "anchors": ["hooks.c:notmuch_run_hook", "notmuch-new.c:notmuch_new_command", "notmuch-insert.c:notmuch_insert_command"]}
{"id": "C61", "title": "notmuch config", "statement": "`notmuch config get KEY` prints the items of the value of the key, one on a line: the value in the configuration file, else that in the database, else the default. `config set KEY VALUE...` changes that key in the file and nothing else: from then on it has the value (several values are a list), other keys have what they had, and `get` prints the values as they were given; without a value the key has again what it has without the file. `config set --database` does the same with the configuration in the database, which counts if the file has none. `config list` prints each key that has a value once, in order. A `set` that is rejected (read-only key, no dot, bad field name, several values for the database, file that cannot be written) has status 1 and has changed nothing. Not so: a name that GLib does not accept is not set but gives success; in a list a `;` is printed with a backslash and a backslash at the end swallows the next value; a value that is not UTF-8 is accepted and then every `notmuch config` fails, also the one that would remove it; `--config=` reads no file but writes that of the user; a group with a dot in its name can hide a key; only the last part of a header's name is checked.", "quantifier": "every configuration file, database, environment, key and list of values", "why_tests_cant": "all files, keys and values, and the next command after the change", "anchors": ["notmuch-config.c:notmuch_config_command,notmuch_config_command_get,notmuch_config_command_set,notmuch_config_command_list,_set_db_config,validate_field_name,_config_key_info,_item_split,notmuch_conffile_open,notmuch_conffile_save", "lib/open.cc:notmuch_database_load_config,_choose_database_path", "lib/config.cc:_notmuch_config_load_from_file,_notmuch_config_load_defaults"]}
{"id": "C62", "title": "What a program reads through a message object", "statement": "A program that has one object of a message can call notmuch_message_get_message_id, get_thread_id, get_tags, get_filename(s), count_files, get_flag, has_maildir_flag, get_property, get_properties and count_properties in any order, mixed with adding and removing tags and properties, freeze, thaw, maildir_flags_to_tags, a rename of a file by tags_to_maildir_flags, and reopening the database: every answer is what the message says at that moment (what it said when the object was made, with the changes made since through the object), although the object remembers what it read before. In the end the document says the same, it is stored unless the object is frozen, nothing else in it has changed, and with a read-only database nothing is stored and each change is refused. As long as the object is frozen nothing is stored, except by renaming a file. Not so: after an exception in reading the files the list of the files stays incomplete (and then get_filename can end the process); a maildir flag stays if no file has maildir information any more; two objects of one message lose changes.", "quantifier": "every message, every sequence of calls on its object, every directory layout", "why_tests_cant": "all orders of calls, where each call changes what the object remembers", "anchors": ["lib/message.cc:_notmuch_message_ensure_metadata,_notmuch_message_invalidate_metadata,notmuch_message_get_tags,notmuch_message_get_filename,notmuch_message_get_filenames,notmuch_message_count_files,notmuch_message_add_tag,notmuch_message_remove_tag,notmuch_message_remove_all_tags,notmuch_message_freeze,notmuch_message_thaw,notmuch_message_maildir_flags_to_tags,_notmuch_message_add_filename,_notmuch_message_remove_filename,_notmuch_message_sync,_ensure_maildir_flags", "lib/message-property.cc:notmuch_message_get_property,notmuch_message_get_properties,notmuch_message_add_property,notmuch_message_remove_property,_notmuch_message_remove_all_properties"]}
{"id": "C63", "title": "Reindexing a message", "statement": "notmuch_message_reindex throws away what the document of a message says and builds it again from its files. Whatever was called on the object before, if the files that can be opened are mails, the message is deleted if and only if none of them could be indexed; otherwise the document has exactly: the id, the type mail, the tags of the user (all but encrypted, signed and attachment), the properties (all but those that begin with index., and, if decryption is off, the session keys), and what the files that can be opened give now: entry, folder and path terms, references, thread (the old one if none is found), tags, properties and words of the index; nothing else of the old document is left. Its header values are those of the first file that was indexed. The document is stored; a new object then answers every sequence of calls according to this message, its files are those that can be opened, and reindexing again changes nothing. With a read-only database nothing changes. notmuch reindex: exit status 0 means that all messages of the search are reindexed and in the database; if one fails or the atomic section cannot be ended, the database is as it was; after SIGINT the messages before it stay reindexed and the exit status is not 0. Not so: words after a property are not stored if nothing else follows; a file without readable headers leaves the message without files and thread; two files can give a message two threads; an error in the last file is the status although the message was reindexed; an exception in reading the names of the files deletes the message; the object itself still shows automatic tags that are gone; a failure to begin the atomic section is forgotten.", "quantifier": "every message, every history of its object, every set of files and their contents, every list of messages and every time of SIGINT", "why_tests_cant": "a document is built from any number of files after any history", "anchors": ["lib/message.cc:notmuch_message_reindex,_notmuch_message_remove_indexed_terms,_notmuch_message_gen_terms,_notmuch_message_add_term", "lib/add-message.cc:_notmuch_database_link_message_to_parents", "lib/index.cc:_notmuch_message_index_file", "notmuch-reindex.c:reindex_query"]}
{"id": "C64", "title": "Tags in a git repository", "statement": "notmuch git keeps the tags with a prefix as files in a git repository. Every id and tag has a file of its own, in both formats, and the name of the file gives the id and the tag back. Whatever happened before to the database (no message removed), to the index files and to HEAD, and whichever runs with whichever prefix went before, status reports exactly the tags the database has and HEAD does not have, those HEAD has and the message does not have, and those of messages that are not in the database, although only messages changed since the last run are read. A commit that is not stopped leaves in HEAD exactly the tags of the messages of the database, keeps those of other messages and all other files; committing again does nothing. A checkout that is not stopped gives each message exactly the tags HEAD has for it and changes no tag without the prefix; then the status is empty. What one database commits and another one checks out is the same for messages they share. Without --force, nothing changes if more messages than the safe fraction would change or if no message has a tag with the prefix; otherwise nothing is stopped. Merge and pull do nothing with uncommitted changes and otherwise check the merged tree out. Not so: clone never sets a tag (the check of the safe fraction stops it); a new database UUID leaves removed tags in the private index; tags of a removed message are not reported as missing; a change during a run is never noticed; a prefix with a tilde matches nothing; without the Python module unknown messages lose their tags in a commit; tags whose rest git refuses as a name and ids with the separator make every run fail.", "quantifier": "every database, tree, prefix, tag, id, format and history of changes and runs", "why_tests_cant": "tags, ids, histories of two stores and incremental runs are unbounded", "anchors": ["notmuch-git.py:get_status,PrivateIndex,CachedIndex,commit,checkout,merge,clone,check_safe_fraction,_id_path,_hex_quote,_xapian_quote,_batch_line,_unpack_diff_lines", "notmuch-dump.c:dump_messages_message_cb", "notmuch-tag.c:tag_file", "util/hex-escape.c", "util/string-util.c:make_boolean_term,parse_boolean_term"]}
{"id": "C65", "title": "Adding a file", "statement": "Adding a file to the database does the following, whatever the database holds. The headers of the file are the decoded texts of the first header of a name in any case (of all of them for Received and Delivered-To), no matter which were asked for before; the hash is that of the whole contents however they are read. A file that is refused (read-only database, not opened, no atomic section, not mail, no From, Subject and To, no message id and not readable) leaves the database as it is, with the right status. Otherwise the message gets exactly the terms of its name, its type, its references, its thread and its text, keeping all it had, and the date, sender and subject only if it had no file before; the status says whether it had one; other messages change at most their thread; nothing new appears but bare ghosts for unknown parents. After any history of added and refused files each known id has one document with one thread, and two messages are in one thread exactly if the references of the files connect them.", "quantifier": "all files, parser and decoder results, read patterns, orders of the hash table, database contents and histories of added and refused files", "why_tests_cant": "the number of files, references, threads and their interleavings is unbounded, and the effect on every other document must be excluded", "anchors": ["lib/add-message.cc: notmuch_database_index_file, _notmuch_database_link_message, _notmuch_database_link_message_to_parents, _resolve_message_id_to_thread_id, _merge_threads", "lib/message-file.c: _notmuch_message_file_get_header, _notmuch_message_file_get_headers, _notmuch_message_file_parse", "lib/sha1.c: _notmuch_sha1_of_file", "lib/message.cc: _notmuch_message_initialize_ghost, _notmuch_message_set_header_values"]}
{"id": "C66", "title": "The file of a dump, and the backup before an upgrade", "statement": "notmuch dump --output writes the file completely or not at all: at every moment, whatever writes, syncs, closes and renames do, the file has its old contents or the whole dump, also after a crash; on success it has the whole dump and nothing else has changed; on failure nothing has changed and the temporary file is gone. notmuch new upgrades a database only after a complete backup was made, under a name no earlier backup has, from which the tags can be restored.", "quantifier": "all texts, ways of buffering and splitting writes, failing system calls, crash points and sets of changes lost in a crash, times", "why_tests_cant": "there are unboundedly many ways to split the writes and to lose changes in a crash, at every point of the run", "anchors": ["notmuch-dump.c: notmuch_database_dump", "notmuch-new.c: _maybe_upgrade", "notmuch-client.h: ASSERT_GZBYTES"]}
{"id": "C67", "title": "What notmuch new leaves out, counts, tags and reports", "statement": "The values of new.ignore are accepted just when each is a name or a valid regular expression between slashes; after a run without error no file is in the database that a value is about (its name, or a regular expression matching its path below the mail root), nor any below a directory that a value is about, also if it was there before, and files and directories that no value is about are not left out. The number of files shown before the first run is that of the files that are not ignored and not below a .notmuch directory, and not less than what the run can add. A new message gets the tags of new.tags, but not unread when its file has flag S, and with maildir.synchronize_flags those its flags stand for. The numbers of messages added and removed that are reported account for the change of the number of messages, and the three numbers can be read from the report.", "quantifier": "all lists of new.ignore, regular expression matchers, mail stores, databases, interruption points, file names with flags, lists of new.tags and mappings of files to messages", "why_tests_cant": "mail stores, ignore lists and message id collisions are unbounded, and the path given to the regular expression is built at every depth of the scan", "anchors": ["notmuch-new.c: _setup_ignore", "notmuch-new.c: _get_relative_path", "notmuch-new.c: _entry_in_ignore_list", "notmuch-new.c: count_files", "notmuch-new.c: add_file", "notmuch-new.c: remove_filename", "notmuch-new.c: print_results"]}
{"id": "C68", "title": "notmuch setup", "statement": "When all questions are answered, the configuration file has the answers that are not empty, and else what it had: tags are the words of the answer whatever spaces are between and around them, a relative mail directory starts at the current directory, an additional address stays unless another is given for it, and more can be added; nothing else is changed, and each question shows what the configuration has. If no mail directory is answered, the configuration that every command sees afterwards is the one before with the answers; empty lines only change nothing. If the input ends early, or anything fails, nothing is changed.", "quantifier": "all configurations, databases, environments, answers, inputs and current directories, also without a configuration file", "why_tests_cant": "there are unboundedly many configurations and answers, and that nothing else changes is about every key", "anchors": ["notmuch-setup.c: notmuch_setup_command", "notmuch-setup.c: parse_tag_list", "notmuch-setup.c: make_path_absolute", "notmuch-config.c: notmuch_conffile_open", "notmuch-config.c: notmuch_conffile_save", "notmuch-config.c: _config_set_list"]}
{"id": "C69", "title": "signatures and encryption in notmuch show", "statement": "Secret keys are used only with --decrypt=true or stash and only for a part that no session key of the message opens; with false nothing that any key opens is shown, and with auto nothing but what the session keys of the message open. Session keys are stored only with stash, exactly those that a secret key gave, and the message is then indexed again. Each part that is shown with encstatus good was decrypted, with that cleartext and those signatures. The message counts as decrypted exactly if a part was. If the layers of signing and encryption around the content are well formed, the message is signed with what the innermost says, counts as decrypted in full exactly if a layer was decrypted, shows the subject that the content protects exactly if it is signed or decrypted, and all else that is shown are these layers and their control parts.", "quantifier": "all messages (trees of parts), session keys, policies, and all results of decryption and verification", "why_tests_cant": "messages nest without bound, and the result of any key may be any message", "anchors": ["mime-node.c: node_verify", "mime-node.c: node_decrypt_and_verify", "mime-node.c: _mime_node_set_up_part", "mime-node.c: mime_node_child", "util/crypto.c: _notmuch_crypto_decrypt", "util/crypto.c: _notmuch_message_crypto_potential_sig_list", "util/crypto.c: _notmuch_message_crypto_potential_payload", "util/crypto.c: _notmuch_message_crypto_successful_decryption", "notmuch-show.c: format_part_sprinter", "notmuch-show.c: format_headers_sprinter", "notmuch-show.c: show_message"]}
{"id": "C70", "title": "several programs with one database", "statement": "Any number of programs open, read, change, close and reopen one database in any order, and may die at any moment. At most one at a time can change messages. A program that opened the database to read sees each message, the revision and the configuration as they were when it opened it, whatever others do, and can change nothing. Through a closed handle nothing is changed or found. Nothing of an atomic section can be seen by others before its end, and nothing of it remains if its program dies before. What a program has changed is there for others once it has closed the database. Each message that changes after a reader learned the revision has a later revision. The programs' changes that were reported as done have the same effect as if they were done one after another.", "quantifier": "all schedules of calls of any number of programs, all failures of Xapian, all moments at which processes die or Xapian writes to the disk", "why_tests_cant": "the schedules, and the moments of writing and dying, have no bound", "anchors": ["lib/open.cc: notmuch_database_open_with_config", "lib/open.cc: notmuch_database_reopen", "lib/open.cc: _load_database_state", "lib/database.cc: notmuch_database_close", "lib/database.cc: notmuch_database_destroy", "lib/database.cc: _notmuch_database_ensure_writable", "lib/database.cc: notmuch_database_begin_atomic", "lib/database.cc: notmuch_database_end_atomic", "lib/database.cc: notmuch_database_get_revision", "lib/database.cc: _notmuch_database_new_revision", "lib/config.cc: notmuch_database_set_config", "lib/config.cc: notmuch_database_get_config", "lib/message.cc: _notmuch_message_sync"]}
{"id": "C71", "title": "the replacements for functions of the C library", "statement": "On systems without them, notmuch uses its own timegm, strsep, strcasestr, getdelim and getline. timegm gives the seconds since 1970-01-01 of every later day of the Gregorian calendar as long as an int holds them; strsep called until NULL gives the pieces between the delimiters and changes nothing but the delimiters; strcasestr finds the first place of the needle, or nothing just if there is none; getdelim never writes outside of its block, whatever is read and whichever allocation fails, and getline called until -1 gives the lines of the file.", "quantifier": "all days and times, all strings, delimiters and needles, all files, buffers and failing allocations", "why_tests_cant": "the strings and files have any length, and the calendar has no end", "anchors": ["compat/timegm.c: timegm", "compat/strsep.c: strsep", "compat/strcasestr.c: strcasestr", "compat/getdelim.c: getdelim", "compat/getline.c: getline"]}
{"id": "C72", "title": "the objects of the Python bindings free memory once and do not use it afterwards", "statement": "Whatever objects a Python program makes with notmuch2 (databases, queries, iterators, messages, threads, sets of tags, maps), uses and deletes, in whatever order, no object of the library is freed twice; a method of an object that says it is alive, or that the program keeps with everything it came from, never uses freed memory; a deleted object frees exactly its memory and what the library attached to it, and raises ObjectDestroyedError afterwards; and when all databases were destroyed nothing is left.", "quantifier": "all programs: lists of calls on all objects, with iterators of any length, in any order of deletion", "why_tests_cant": "the garbage collector may delete in any order, and programs make any number of objects", "anchors": ["bindings/python-cffi/notmuch2/_base.py: NotmuchObject, MemoryPointer, NotmuchIter", "bindings/python-cffi/notmuch2/_database.py: Database", "bindings/python-cffi/notmuch2/_query.py: Query", "bindings/python-cffi/notmuch2/_message.py: Message, OwnedMessage, MessageIter, PropertiesMap", "bindings/python-cffi/notmuch2/_thread.py: Thread, ThreadIter", "bindings/python-cffi/notmuch2/_tags.py: ImmutableTagSet, TagsIter", "bindings/python-cffi/notmuch2/_config.py: ConfigMapping", "lib/query.cc: notmuch_query_search_messages, notmuch_threads_get", "lib/messages.c: notmuch_messages_get"]}
{"id": "C73", "title": "words and phrases are found in the field they are in", "statement": "A word asked for in a field (from, to, subject, mimetype, attachment, body, or a header configured as index.header.NAME) is found exactly in the messages one of whose files has it in that field, however many files a message has; the same for stems. A phrase is found exactly when its words stand together in one text of the field - one address, one header, one part, never across two - for a message with one file or a message that was reindexed; for a message with several files added one by one all phrases are found. Names accepted by notmuch config set never collide with other fields.", "quantifier": "all mails: address lists with nested groups, all headers and parts, all configurations of user headers, all words, stems and phrases of any length, any number of files", "why_tests_cant": "address groups nest to any depth, and phrases and texts have any length", "anchors": ["lib/message.cc: _notmuch_message_gen_terms, _notmuch_message_create_for_document, notmuch_message_reindex", "lib/index.cc: _index_address_mailbox, _index_address_group, _index_address_list, _notmuch_message_index_user_headers, _notmuch_message_index_file", "lib/prefix.cc: _notmuch_database_prefix, _notmuch_database_setup_user_query_fields", "lib/add-message.cc: notmuch_database_index_file", "notmuch-config.c: validate_field_name"]}
{"id": "C74", "title": "the tags and the properties of a message are Python collections", "statement": "Whatever a Python program does with message.tags as a set (in, len, iteration, ==, <=, <, >=, >, isdisjoint, &, |, -, ^, add, discard, remove, pop, clear, &=, |=, -=, ^=, with sets, lists, other tags, or the tags themselves) and with message.properties as a mapping (lookup, len, iteration, keys, items, values, assignment, del, add, remove, pop, popitem, clear, getall, setdefault), in whatever order, it gets what the set of the tags and the multimap of the properties say, and afterwards the message has exactly what was asked for; on a read-only database or with a tag that is too long it raises, and nothing that was not asked for is changed.", "quantifier": "all messages whose names are UTF-8, all sequences of operations, all operands of any size, read-only or not", "why_tests_cant": "programs are sequences of any length, and sets have any size", "anchors": ["bindings/python-cffi/notmuch2/_tags.py: ImmutableTagSet, MutableTagSet, TagsIter", "bindings/python-cffi/notmuch2/_message.py: PropertiesMap, PropertiesKeyIter, PropertiesIter", "bindings/python-cffi/notmuch2/_base.py: BinString", "lib/message.cc: notmuch_message_add_tag, notmuch_message_remove_tag, notmuch_message_remove_all_tags, notmuch_message_get_tags", "lib/message-property.cc: notmuch_message_get_property, notmuch_message_add_property, notmuch_message_remove_property, notmuch_message_remove_all_properties, notmuch_message_get_properties"]}
{"id": "C75", "title": "Emacs gets the same results however the output of notmuch arrives", "statement": "The output of notmuch --format=sexp reaches Emacs in pieces. However it is cut, at any character, even inside a string, an escape or a symbol: every result of the list is handed to the result function exactly once, in order, without an error; after any beginning of the output the results handed over do not depend on the cuts; a result that is a list, map or string is handed over as soon as its last character has arrived, another one when the next character has; and text behind the list is reported as an error.", "quantifier": "all lists of values of any size and nesting, all bytes in strings, all ways to cut the text into pieces, all beginnings of the text", "why_tests_cant": "there are exponentially many ways to cut each of infinitely many texts", "anchors": ["emacs/notmuch-parser.el: notmuch-sexp-create-parser, notmuch-sexp-read, notmuch-sexp-begin-list, notmuch-sexp-parse-partial-list", "emacs/notmuch.el: notmuch-search-process-filter", "emacs/notmuch-address.el: notmuch-address-harvest-filter", "sprinter-sexp.c"]}
{"id": "C76", "title": "Tagging from Emacs does what is asked, shows it, and can be undone", "statement": "For a tag change +tag or -tag with any tag without blanks that notmuch takes (whatever else is in it: %, quotes, non-ASCII) and any one-line query, tagging in Emacs makes notmuch do exactly these changes, in order, for exactly that query; every matching message gets exactly the tags the changes say and no other message is touched; the tags Emacs then shows are those of the database, sorted. A malformed change does nothing. The command is remembered only if it succeeded, and undoing as many times as one has tagged gives every message its tags back, for queries that do not depend on the tags and changes that were changes. The query made of a message id reads as exactly that id.", "quantifier": "all tags, queries, databases, sequences of tagging commands and undos, and message ids", "why_tests_cant": "there are infinitely many texts and histories, and a tag or id with an unlucky character changes the command", "anchors": ["emacs/notmuch-tag.el: notmuch-tag, notmuch-tag-undo, notmuch-update-tags, notmuch-tag-change-list", "emacs/notmuch-lib.el: notmuch-hex-encode, notmuch-escape-boolean-term, notmuch-id-to-query", "notmuch-tag.c: tag_file, tag_query", "tag-util.c: parse_tag_line"]}
{"id": "C77", "title": "A sent message saved from Emacs is whole, under a new name, and nothing else is touched", "statement": "When Emacs files a sent message in the maildirs of its Fcc headers, the message appears complete in cur/, marked seen, under a name that no file had, and nothing else changes; wherever Emacs stops or a call fails, no file that was there is changed or lost and no partly written file is ever outside tmp/; if saving ends without an error, and the user did not ignore a folder, there are as many new complete files as Fcc headers, whatever the user answered when asked about a folder. Names have no slash or colon whatever the host is called, and two names made by one Emacs differ.", "quantifier": "all file systems, hosts, clocks, messages, lists of Fcc headers, sequences of the user's answers, faults and crash points", "why_tests_cant": "crash points, name collisions and answers cannot be enumerated", "anchors": ["emacs/notmuch-maildir-fcc.el: notmuch-maildir-message-do-fcc, notmuch-maildir-fcc-file-fcc, notmuch-maildir-fcc-write-buffer-to-maildir, notmuch-maildir-fcc-save-buffer-to-tmp, notmuch-maildir-fcc-make-uniq-maildir-id, notmuch-maildir-fcc-host-fixer, notmuch-maildir-fcc-create-maildir, notmuch-maildir-fcc-dir-is-maildir-p"]}
{"id": "C78", "title": "The Ruby bindings do not use freed memory in programs that keep what they use", "statement": "A Ruby program that keeps the database while it uses what came from it, the Query while it goes through its Threads, and the Thread (and the Message) while it goes through their Messages, that destroys none of these before, and takes each message of a thread once, never uses freed memory and frees nothing twice, whenever and in whatever order the garbage collector frees what the program has forgotten. Every method called on a destroyed object raises an exception and does nothing. When all Ruby objects are gone all memory is freed, whatever the program did. Closing or destroying a database gives up its lock.", "quantifier": "all programs (sequences of method calls, nested loops, destroy! calls), all shapes of threads, and all schedules of the garbage collector", "why_tests_cant": "the collector runs at arbitrary times and in arbitrary order; a test sees one schedule", "anchors": ["bindings/ruby/defs.h: notmuch_rb_object_create, notmuch_rb_object_free, notmuch_rb_object_destroy, Data_Get_Notmuch_Object", "bindings/ruby/init.c: define_type", "bindings/ruby/messages.c: notmuch_rb_messages_each", "bindings/ruby/threads.c: notmuch_rb_threads_each", "bindings/ruby/thread.c: notmuch_rb_thread_get_messages", "bindings/ruby/message.c: notmuch_rb_message_get_replies", "lib/query.cc: notmuch_threads_get", "lib/messages.c: _notmuch_messages_create"]}
{"id": "C79", "title": "A draft saved by the Emacs interface comes back as it was, and the newest is kept", "statement": "Resuming a saved draft gives the message that was saved, for every text of the body (also with MML tags that are quoted, quoted already, in any case, and with a secure tag on the first line), but for Message-ID and Date. In what is saved no tag of notmuch-draft-quoted-tags is left that would be acted on. A message that matches the tags asking for encryption is saved only if the user allows it. However often a message is saved and whichever of the commands fail, all that was saved is in the database and the newest draft is not marked deleted, nor anything else but older drafts of this message; if nothing fails, exactly the older ones are, and all of them once the message is sent.", "quantifier": "all messages, all lists of quoted tags, and all sequences of saving with failures of notmuch insert, notmuch tag and sending", "why_tests_cant": "texts that look like quoted tags, and sequences of failures, are unbounded", "anchors": ["emacs/notmuch-draft.el: notmuch-draft-quote-some-mml, notmuch-draft-unquote-some-mml, notmuch-draft--has-encryption-tag, notmuch-draft--query-encryption, notmuch-draft-save, notmuch-draft-resume, notmuch-draft--mark-deleted"]}
{"id": "C80", "title": "Arguments of notmuch-emacs-mua are never evaluated as Lisp", "statement": "For all arguments and in every directory, the text that notmuch-emacs-mua gives to Emacs is read by the Lisp reader as exactly the program the options mean: the arguments and the directory are string constants with just these bytes, whatever quotes, backslashes, parentheses or newlines they have, and nothing of them is code. It is run by emacs or emacsclient as the options say, if the arguments are options and words that go together, and otherwise there is an error. Addresses given by options of one kind are in their header with a comma between.", "quantifier": "all lists of arguments and all names of directories", "why_tests_cant": "injection needs particular bytes in particular places; tests try a few", "anchors": ["emacs/notmuch-emacs-mua: escape, the loops over options and words, the construction of ELISP"]}
{"id": "C81", "title": "Saved searches are shown with their own counts", "statement": "If all texts for counting are queries, the Emacs interface shows each saved search, in order, with the number of messages its own text finds, however the texts look (newlines count as spaces); a search that finds nothing is left out unless asked for. If one text is no query there is an error instead of counts that belong to other searches. In the table each search is just once, and going down the columns they are in order. Numbers are shown in groups of three digits.", "quantifier": "all lists of saved searches, filters, databases and query texts; all widths and numbers of columns; all numbers", "why_tests_cant": "counts are matched to searches only by their order in the output of one process; a shift needs particular texts, and shows in no error", "anchors": ["emacs/notmuch-hello.el: notmuch-hello-query-counts, notmuch-hello-filtered-query, notmuch-hello-reflect, notmuch-hello-tags-per-line, notmuch-hello-nice-number", "notmuch-count.c: count_file"]}
{"id": "C82", "title": "Wrapping long lines of a message only breaks lines", "statement": "When a message is shown in Emacs its long lines are wrapped. If no line has more citation marks than half the width, this ends without an error; each wrapped line's parts, joined by one space with the leaders taken off, are the line; a word follows each break; each part fits, or has no other place to break. In a text without citation marks every line is wrapped. Whatever the text, if it ends without an error nothing but breaks is added.", "quantifier": "all texts and widths", "why_tests_cant": "an endless loop or a lost character needs particular lengths of leaders, words and spaces", "anchors": ["emacs/coolj.el: coolj-determine-prefix, coolj-wrap-region, coolj-wrap-line, coolj-set-breakpoint, coolj-find-break-backward, coolj-find-break-forward", "emacs/notmuch-wash.el: notmuch-wash-wrap-long-lines"]}
{"id": "C83", "title": "The configuration in Python is a dictionary", "statement": "After opening a database (with database.path given, or not stored in the database), db.config of the Python bindings behaves as a dictionary of the configuration values that are not empty, for every sequence of lookups, tests, assignments, deletions, listings, popitem and clear, of any length: each result and each change is that of a dictionary, in the order of keys; with a database opened for reading only, changes are errors and change nothing. Deleting a key that is not there is no error; assigning an empty value deletes.", "quantifier": "all openings, all sequences of operations, all keys and values without NUL", "why_tests_cant": "the mapping is a sorted array with binary search, re-sorted lazily, where deleted items stay as empty; errors need particular histories", "anchors": ["bindings/python-cffi/notmuch2/_config.py: ConfigMapping, ConfigIter", "lib/config.cc: notmuch_database_set_config, notmuch_database_get_config, notmuch_config_get_pairs", "lib/string-map.c"]}
{"id": "C84", "title": "A drawing of threads in Emacs shows their structure", "statement": "notmuch-tree in Emacs draws each message of each thread once, a message before its replies; the drawing determines the threads: two different collections of threads are never drawn the same, for the default symbols and any others of one character that tell a thread's first message from others. With the default symbols the lines join: a character reaches down exactly if the one below it reaches up, and nothing reaches out of a thread. Only the first line of a thread is marked as first and of outline level 1. A subject shown as ... is that of the line above.", "quantifier": "all forests of any depth and width; all readable symbols; all subjects", "why_tests_cant": "trees of any shape; a wrong bar shows only for particular nestings of last and not last replies", "anchors": ["emacs/notmuch-tree.el: notmuch-tree-insert-tree, notmuch-tree-insert-thread, notmuch-tree-insert-forest-thread, notmuch-tree-insert-forest, notmuch-tree-thread-symbols, notmuch-tree-format-field"]}
{"id": "C85", "title": "Atomic sections in Python are kept or lost as a whole", "statement": "For every Python program of changes, nested with db.atomic() blocks, exceptions, handlers and ctx.abort(): when an outermost block is left, by its end or an exception, and nothing was aborted, the section is ended and exactly the changes up to an exception that was not caught are in the database, under one new revision (none if nothing changed), and the exception is passed on; if any section in it was aborted the database is closed and nothing of it reaches the disk; nor does anything while the section is open. A section that cannot be entered is not run. Revisions of one database compare as their numbers.", "quantifier": "all programs, of any nesting; all states of the database; whether Xapian fails on a closed database or not", "why_tests_cant": "which exits run depends on the nesting of exceptions, handlers and aborts in any program", "anchors": ["bindings/python-cffi/notmuch2/_database.py: AtomicContext, Database.atomic, Database.close, DbRevision", "lib/database.cc: notmuch_database_begin_atomic, notmuch_database_end_atomic, notmuch_database_close"]}
{"id": "C86", "title": "The name of a patch is a plain file name", "statement": "Whatever the subject of a message, the file name that Emacs gives to a patch in it (which is offered for saving) is at least four digits, a hyphen, at most 52 characters and .patch, made of letters, digits, dots, underscores and hyphens: no slash, space, newline or NUL, and no two dots in a row. For a subject of words after prefixes in brackets it is the words with hyphens between them, with the number N of the last bracket that has N/M.", "quantifier": "all subjects, of any length and with any characters; all case tables in which space, slash, newline and NUL have no other case", "why_tests_cant": "the subject is written by whoever sent the message; the rules are regular expressions that interact", "anchors": ["emacs/notmuch-wash.el: notmuch-wash-subject-to-filename, notmuch-wash-subject-to-patch-sequence-number, notmuch-wash-subject-to-patch-filename"]}
{"id": "C87", "title": "Reading a thread in Emacs marks what was looked at, once", "statement": "In a notmuch-show buffer, a message is marked read exactly when it is at point, open, after a command, and had not been dealt with since the buffer was built: only the tags for messages that were read are changed, of that message only; whatever history follows it is not marked read a second time, so that a message the user makes unread again stays so (until the buffer is refreshed, which a counterexample shows). Commands on the whole thread change exactly the messages that the buffer has, whatever has been delivered meanwhile. While nobody else changes tags, the tags shown are the tags that the messages have (a counterexample shows a command that does nothing after somebody did). Moving to the next open or matching message goes to the first one after point. Opening a thread goes to the first matching message that is not excluded and opens exactly these (or, if there is none, the matching ones). Refreshing keeps exactly the open messages open and point at its message.", "quantifier": "all threads, of any length, all tags and tag changes, all histories of commands, movements of point, and changes made by others, all changes for messages that were read", "why_tests_cant": "the state of the buffer, the database and the history interact; a test follows one path", "anchors": ["emacs/notmuch-show.el: notmuch-show-seen-current-message, notmuch-show-mark-read, notmuch-show-command-hook, notmuch-show-tag-message, notmuch-show-tag, notmuch-show-tag-all, notmuch-show-next-message, notmuch-show-previous-message, notmuch-show-next-open-message, notmuch-show-next-matching-message, notmuch-show-goto-first-wanted-message, notmuch-show--build-buffer, notmuch-show-refresh-view, notmuch-show-capture-state, notmuch-show-apply-state"]}
{"id": "C88", "title": "One kind of alternative of a message is shown, the least discouraged", "statement": "Of the parts of a multipart/alternative message at least one is shown in Emacs, whatever the list of discouraged types: never are all hidden. The parts shown are exactly those of one type, and no part of the message is of a less discouraged type (a type that matches an earlier entry of the list counts as more discouraged than by all later ones together). If some part is not discouraged at all, or no type is there twice, the type is that of the first such part; a counterexample shows that it need not be with a discouraged type that is there twice.", "quantifier": "all lists of parts, of any length, with types repeated or not, and all lists of discouraged types (any predicates)", "why_tests_cant": "the list is reordered destructively while a copy is walked; what comes first depends on all the types together", "anchors": ["emacs/notmuch-lib.el: notmuch-multipart/alternative-choose", "emacs/notmuch-show.el: notmuch-show-insert-part-multipart/alternative"]}
{"id": "C89", "title": "Eliding blank lines keeps the text", "statement": "When Emacs shows a message without superfluous blank lines, every line that is not blank is there, unchanged (with its indentation), in its place, with a blank line before it exactly if it had one or more; blank lines are empty, none is at the beginning, no two are in a row, and none is at the end (if newline is whitespace, as in the standard syntax table; a counterexample shows one that stays otherwise, because it is looked for after the end). Doing it again changes nothing.", "quantifier": "all texts, of any length, and all classes of whitespace, with newline or without", "why_tests_cant": "three searches with regular expressions that match across lines run one after the other over text that they change", "anchors": ["emacs/notmuch-wash.el: notmuch-wash-elide-blank-lines"]}
{"id": "C90", "title": "Keys of notmuch-jump lead to their actions", "statement": "Typing the key of a saved search, of any length, performs the action that was given to it last, provided that no beginning of the key is a key itself and that no character of it but the last is a command of the minibuffer (counterexamples: a longer key that begins with a digit, and one that begins with another key, have no effect). Nothing is performed unless the characters of its key have been typed in order; while it waits, what was typed is always the beginning of a key; DEL takes back the last character as if it had not been typed. The table of keys has all items in order, in columns that begin at the same places with at least three spaces between, no wider than the window.", "quantifier": "all lists of keys and actions, keys of any length, all that can be typed, all widths of windows and characters", "why_tests_cant": "submaps are built from what is left of the keys, with closures that lead back; the table depends on all widths together", "anchors": ["emacs/notmuch-jump.el: notmuch-jump, notmuch-jump--make-keymap, notmuch-jump--insert-items"]}
{"id": "C91", "title": "Tagging a region of search results in Emacs", "statement": "Changing tags in the list of search results concerns exactly the threads whose lines overlap the region (the thread at point without one): the query given to notmuch tag joins exactly their stable queries (of the matched messages only, if so asked, as tag-all does), the tags shown become what the changes make of them, all other lines stay, and point stays on its line; archiving a thread then moves to the next one. A region that touches no result is an error.", "quantifier": "all lists of results, widths of lines, regions, positions of point, tag changes, however lines grow or shrink when drawn anew", "why_tests_cant": "the loop walks by positions while each call deletes and inserts text; the end is a marker that is moved by it; point is restored by a guess", "anchors": ["emacs/notmuch.el: notmuch-search-foreach-result, notmuch-search-find-stable-query-region, notmuch-search-tag, notmuch-search-update-result, notmuch-search-archive-thread, notmuch-search-tag-all"]}
{"id": "C92", "title": "Filtering search results in Emacs", "statement": "Filtering the results of a query by another one gives a query that matches exactly the messages both match, however often it is repeated, although the two are joined as text: queries with the word or are put in parentheses. Counterexamples: a query with XOR alone, the empty query, and filtering by a tag when the query has OR, where no parentheses are added and messages without the tag are shown.", "quantifier": "all queries as lists of words, operators and nested parentheses, all sets of messages words stand for, any number of filters", "why_tests_cant": "precedence decides what text means after it was joined with other text; tests filter simple queries", "anchors": ["emacs/notmuch.el: notmuch-group-disjunctive-query-string, notmuch-search-filter, notmuch-search-filter-by-tag", "emacs/notmuch-tree.el: notmuch-tree-filter, notmuch-tree-filter-by-tag", "lib/query.cc: _notmuch_query_ensure_parsed_xapian"]}
{"id": "C93", "title": "Sending from Emacs asks about misplaced <#secure> tags", "statement": "A message is sent from Emacs without a question exactly if no <#secure tag is in it, in headers or body, in whatever case, or just one, at the beginning of the body, closed by > and followed by a newline; otherwise there are questions, and the message stays unsent unless each is answered yes.", "quantifier": "all texts of messages, places of the body, ways to compare letters, answers", "why_tests_cant": "the check searches backwards twice and then looks at the body with a regular expression; tests send a few messages", "anchors": ["emacs/notmuch-mua.el: notmuch-mua-check-no-misplaced-secure-tag, notmuch-mua-check-secure-tag-has-newline, notmuch-mua-send-common"]}
{"id": "C94", "title": "Addresses for completion in Emacs are kept", "statement": "For all histories of completions, harvests in the background, failures, changed settings and restarts of Emacs: a file that does not hold saved addresses is never overwritten; every address known when a full harvest ended is offered from then on wherever it matches, also after restarts, as long as settings and file stay; no two harvests are started within a day unless one failed, and after a failure the next completion starts one. Counterexample: settings changed while a harvest runs.", "quantifier": "all histories of events, times, addresses, contents of the file", "why_tests_cant": "variables, file and a process in the background have to agree over days and restarts; tests never wait for a harvest", "anchors": ["emacs/notmuch-address.el: notmuch-address-options, notmuch-address--load-address-hash, notmuch-address--save-address-hash, notmuch-address-harvest-trigger, notmuch-address-harvest"]}
