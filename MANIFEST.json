{
 "claims": [
  {
   "property": "C01",
   "status": "proved",
   "theorems": [
    "Notmuch.Props.C01_hex_roundtrip",
    "Notmuch.Props.C01_hex_roundtrip_inplace",
    "Notmuch.Props.C01_inplace_eq"
   ],
   "note": ""
  },
  {
   "property": "C02",
   "status": "proved",
   "theorems": [
    "Notmuch.Props.C02_hex_alphabet",
    "Notmuch.Props.C02_hex_no_separator",
    "Notmuch.Props.C02_hex_identity",
    "Notmuch.Props.C02_hex_injective"
   ],
   "note": ""
  },
  {
   "property": "C03",
   "status": "proved",
   "theorems": [
    "Notmuch.Props.C03_encode_size",
    "Notmuch.Props.C03_decode_size"
   ],
   "note": ""
  },
  {
   "property": "C04",
   "status": "proved",
   "theorems": [
    "Notmuch.Props.C04_decode_iff",
    "Notmuch.Props.C04_decode_none_iff",
    "Notmuch.Props.C04_decode_shrinks"
   ],
   "note": ""
  },
  {
   "property": "C05",
   "status": "proved",
   "theorems": [
    "Notmuch.Props.C05_boolean_term_roundtrip",
    "Notmuch.Props.C05_make_reads",
    "Notmuch.Props.C05_parse_iff",
    "Notmuch.Props.C05_unambiguous"
   ],
   "note": ""
  },
  {
   "property": "C06",
   "status": "proved",
   "theorems": [
    "Notmuch.Props.C06_make_fits",
    "Notmuch.Props.C06_dequote_fits"
   ],
   "note": ""
  },
  {
   "property": "C07",
   "status": "proved",
   "theorems": [
    "Notmuch.Props.C07_batch_line_roundtrip",
    "Notmuch.Props.C07_skip",
    "Notmuch.Props.C07_command_line_roundtrip",
    "Notmuch.Props.C07_command_line_legal",
    "Notmuch.Props.C07_escaped_dash_accepted",
    "Notmuch.Props.C07_escaped_nul_accepted"
   ],
   "note": ""
  },
  {
   "property": "C08",
   "status": "proved",
   "theorems": [
    "Notmuch.Props.C08_tags_roundtrip",
    "Notmuch.Props.C08_header",
    "Notmuch.Props.C08_accumulate",
    "Notmuch.Props.C08_auto_detection_counterexample"
   ],
   "note": "needs --format=batch-tag or a first message id without '('; the need is shown by a counterexample theorem"
  },
  {
   "property": "C09",
   "status": "partial",
   "theorems": [
    "Notmuch.Props.C09_props_config_roundtrip_partial",
    "Notmuch.Props.C09_stale_properties_counterexample",
    "Notmuch.Props.C09_missing_message_counterexample"
   ],
   "note": "holds for messages with at least one property and for configuration; refuted for messages without properties and for missing messages"
  },
  {
   "property": "C10",
   "status": "proved",
   "theorems": [
    "Notmuch.Props.C10_apply_last_wins",
    "Notmuch.Props.C10_apply_succeeds",
    "Notmuch.Props.C10_apply_idempotent"
   ],
   "note": ""
  },
  {
   "property": "C11",
   "status": "proved",
   "theorems": [
    "Notmuch.Props.C11_skip_sound"
   ],
   "note": ""
  },
  {
   "property": "C12",
   "status": "proved",
   "theorems": [
    "Notmuch.Props.C12_infix_complete",
    "Notmuch.Props.C12_infix_sound",
    "Notmuch.Props.C12_tag_query_effect",
    "Notmuch.Props.C12_counterexample_slash"
   ],
   "note": ""
  },
  {
   "property": "C13",
   "status": "proved",
   "theorems": [
    "Notmuch.Props.C13_unfrozen_saved",
    "Notmuch.Props.C13_frozen_invisible",
    "Notmuch.Props.C13_object_view",
    "Notmuch.Props.C13_refused",
    "Notmuch.Props.C13_rename_counterexample"
   ],
   "note": ""
  },
  {
   "property": "C14",
   "status": "proved",
   "theorems": [
    "Notmuch.Props.C14_revision_monotone",
    "Notmuch.Props.C14_committed_bound",
    "Notmuch.Props.C14_lastmod_exact",
    "Notmuch.Props.C14_close_keeps",
    "Notmuch.Props.C14_crash_reuses_revisions"
   ],
   "note": ""
  },
  {
   "property": "C15",
   "status": "proved",
   "theorems": [
    "Notmuch.Props.C15_crash_all_or_nothing",
    "Notmuch.Props.C15_open_section_lost",
    "Notmuch.Props.C15_nesting",
    "Notmuch.Props.C15_one_revision"
   ],
   "note": ""
  },
  {
   "property": "C16",
   "status": "proved",
   "theorems": [
    "Notmuch.Props.C16_flags_follow_tags",
    "Notmuch.Props.C16_bad_flags_kept",
    "Notmuch.Props.C16_new_name_fits"
   ],
   "note": ""
  },
  {
   "property": "C17",
   "status": "proved",
   "theorems": [
    "Notmuch.Props.C17_flags_to_tags_meaning",
    "Notmuch.Props.C17_tags_flags_roundtrip",
    "Notmuch.Props.C17_flags_tags_roundtrip",
    "Notmuch.Props.C17_separator_in_directory_counterexample",
    "Notmuch.Props.C17_bad_flags_counterexample"
   ],
   "note": ""
  },
  {
   "property": "C18",
   "status": "proved",
   "theorems": [
    "Notmuch.Props.C18_rename_confined",
    "Notmuch.Props.C18_sync_idempotent",
    "Notmuch.Props.C18_no_overwrite",
    "Notmuch.Props.C18_same_unique_collides"
   ],
   "note": ""
  },
  {
   "property": "C19",
   "status": "proved",
   "theorems": [
    "Notmuch.Props.C19_threads_are_components",
    "Notmuch.Props.C19_one_document_one_thread",
    "Notmuch.Props.C19_files_and_references",
    "Notmuch.Props.C19_order_independent",
    "Notmuch.Props.C19_arrival_order",
    "Notmuch.Props.C19_arrival_joins",
    "Notmuch.Props.C19_duplicate_status",
    "Notmuch.Props.C19_long_self_reference_counterexample"
   ],
   "note": ""
  },
  {
   "property": "C20",
   "status": "proved",
   "theorems": [
    "Notmuch.Props.C20_consistent",
    "Notmuch.Props.C20_threads_between",
    "Notmuch.Props.C20_files",
    "Notmuch.Props.C20_message_lives_with_its_files",
    "Notmuch.Props.C20_remove_one_of_several",
    "Notmuch.Props.C20_remove_last",
    "Notmuch.Props.C20_remove_unknown"
   ],
   "note": ""
  },
  {
   "property": "C21",
   "status": "partial",
   "theorems": [
    "Notmuch.Props.C21_forest",
    "Notmuch.Props.C21_complete_if_acyclic_partial",
    "Notmuch.Props.C21_replies_are_justified",
    "Notmuch.Props.C21_answers_are_below",
    "Notmuch.Props.C21_sorted",
    "Notmuch.Props.C21_orphans_below_deepest_reference",
    "Notmuch.Props.C21_in_reply_to_cycle_counterexample",
    "Notmuch.Props.C21_reference_cycle_counterexample"
   ],
   "note": "forest, order and placement are proved for every thread; 'every message is shown' is proved when the In-Reply-To/References links have no cycle and refuted in general by two counterexamples"
  },
  {
   "property": "C22",
   "status": "proved",
   "theorems": [
    "Notmuch.Props.C22_no_bad_access",
    "Notmuch.Props.C22_get",
    "Notmuch.Props.C22_iterate",
    "Notmuch.Props.C22_iterate_ordered",
    "Notmuch.Props.C22_set",
    "Notmuch.Props.C22_set_get",
    "Notmuch.Props.C22_set_other",
    "Notmuch.Props.C22_last_set",
    "Notmuch.Props.C22_set_other_counterexample"
   ],
   "note": ""
  },
  {
   "property": "C23",
   "status": "proved",
   "theorems": [
    "Notmuch.Props.C23_threads",
    "Notmuch.Props.C23_messages"
   ],
   "note": ""
  },
  {
   "property": "C24",
   "status": "proved",
   "theorems": [
    "Notmuch.Props.C24_set_semantics",
    "Notmuch.Props.C24_largest_id_counterexample"
   ],
   "note": "holds for ids below 2^32-1; the largest id overflows the bitmap size (C24_largest_id_counterexample)"
  },
  {
   "property": "C25",
   "status": "proved",
   "theorems": [
    "Notmuch.Props.C25_search_omitting",
    "Notmuch.Props.C25_search_flagging",
    "Notmuch.Props.C25_search_not_excluding",
    "Notmuch.Props.C25_search_sorted",
    "Notmuch.Props.C25_count",
    "Notmuch.Props.C25_named_tag_not_excluded",
    "Notmuch.Props.C25_count_counterexample",
    "Notmuch.Props.C25_count_threads"
   ],
   "note": "counting ignores the 'do not exclude' setting: counterexample C25_count_counterexample"
  },
  {
   "property": "C26",
   "status": "proved",
   "theorems": [
    "Notmuch.Props.C26_parse_sane",
    "Notmuch.Props.C26_parse_exact",
    "Notmuch.Props.C26_parse_blanks",
    "Notmuch.Props.C26_references",
    "Notmuch.Props.C26_parents_total",
    "Notmuch.Props.C26_strict",
    "Notmuch.Props.C26_parent",
    "Notmuch.Props.C26_message_id",
    "Notmuch.Props.C26_own_parent_counterexample",
    "Notmuch.Props.C26_one_byte_counterexample",
    "Notmuch.Props.C26_blanks_counterexample",
    "Notmuch.Props.C26_in_reply_to_counterexample"
   ],
   "note": "references never contain the message itself, but the recorded parent can (C26_own_parent_counterexample); one-byte ids are lost (C26_one_byte_counterexample)"
  },
  {
   "property": "C27",
   "status": "proved",
   "theorems": [
    "Notmuch.Props.C27_path",
    "Notmuch.Props.C27_folder",
    "Notmuch.Props.C27_folder_unique"
   ],
   "note": ""
  },
  {
   "property": "C28",
   "status": "partial",
   "theorems": [
    "Notmuch.Props.C28_split",
    "Notmuch.Props.C28_split_flat",
    "Notmuch.Props.C28_forms",
    "Notmuch.Props.C28_join",
    "Notmuch.Props.C28_relative_partial",
    "Notmuch.Props.C28_outside",
    "Notmuch.Props.C28_trailing_slashes_kept",
    "Notmuch.Props.C28_relative_outside"
   ],
   "note": "splitting and joining are proved for every path; 'no path outside the root is made relative' is refuted: the root is compared as a string, not up to a slash (C28_relative_outside); proved for roots that are not a string prefix (C28_outside)"
  },
  {
   "property": "C29",
   "status": "proved",
   "theorems": [
    "Notmuch.Props.C29_sanitize",
    "Notmuch.Props.C29_sanitize_bytes"
   ],
   "note": ""
  },
  {
   "property": "C30",
   "status": "proved",
   "theorems": [
    "Notmuch.Props.C30_strcase_hash_consistent",
    "Notmuch.Props.C30_strcase_equal_iff",
    "Notmuch.Props.C30_strcase_equal_equivalence"
   ],
   "note": ""
  },
  {
   "property": "C31",
   "status": "partial",
   "theorems": [
    "Notmuch.Props.C31_sexp_single_partial",
    "Notmuch.Props.C31_sexp_loses_messages",
    "Notmuch.Props.C31_sexp_quotes"
   ],
   "note": "false in general: the s-expression optimiser conjoins the per-operation tests; proved for one operation, refuted for two (C31_sexp_loses_messages)"
  },
  {
   "property": "C32",
   "status": "partial",
   "theorems": [
    "Notmuch.Props.C32_restore_scope_partial",
    "Notmuch.Props.C32_include_properties_counterexample",
    "Notmuch.Props.C32_other_queries_ignored"
   ],
   "note": "proved for messages, configuration and properties; 'tags only if included' is refuted (include=properties applies tag lines)"
  },
  {
   "property": "C33",
   "status": "proved",
   "theorems": [
    "Notmuch.Props.C33_sup_roundtrip"
   ],
   "note": ""
  },
  {
   "property": "C34",
   "status": "proved",
   "theorems": [
    "Notmuch.Props.C34_counts",
    "Notmuch.Props.C34_dates",
    "Notmuch.Props.C34_tags",
    "Notmuch.Props.C34_authors",
    "Notmuch.Props.C34_author_name",
    "Notmuch.Props.C34_subject_newest",
    "Notmuch.Props.C34_subject_oldest",
    "Notmuch.Props.C34_flag_counterexample",
    "Notmuch.Props.C34_authors_counterexample"
   ],
   "note": "with flagged excluded messages the dates are wrong, and without an author among the matches the authors string starts with (null): both refuted by counterexample theorems"
  },
  {
   "property": "C35",
   "status": "proved",
   "theorems": [
    "Notmuch.Props.C35_filenames",
    "Notmuch.Props.C35_find_message",
    "Notmuch.Props.C35_child_files",
    "Notmuch.Props.C35_child_directories",
    "Notmuch.Props.C35_known",
    "Notmuch.Props.C35_directories_distinct",
    "Notmuch.Props.C35_remove",
    "Notmuch.Props.C35_add",
    "Notmuch.Props.C35_remove_message",
    "Notmuch.Props.C35_noCollision",
    "Notmuch.Props.C35_history_example",
    "Notmuch.Props.C35_remove_unknown_directory",
    "Notmuch.Props.C35_long_directory_aborts"
   ],
   "note": "the process ends when a file is added in a directory of more than 237 bytes (C35_long_directory_aborts); removing an unknown file may report no other files (C35_remove_unknown_directory)"
  },
  {
   "property": "C36",
   "status": "proved",
   "theorems": [
    "Notmuch.Props.C36_prefixes",
    "Notmuch.Props.C36_names",
    "Notmuch.Props.C36_user_other",
    "Notmuch.Props.C36_user_user",
    "Notmuch.Props.C36_user_colon",
    "Notmuch.Props.C36_body",
    "Notmuch.Props.C36_values",
    "Notmuch.Props.C36_read",
    "Notmuch.Props.C36_read_succeeds",
    "Notmuch.Props.C36_remove_terms",
    "Notmuch.Props.C36_remove_terms_other",
    "Notmuch.Props.C36_reindex"
   ],
   "note": "user headers with a colon in the name can clash (C36_user_colon)"
  },
  {
   "property": "C37",
   "status": "proved",
   "theorems": [
    "Notmuch.Props.C37_get",
    "Notmuch.Props.C37_iterate",
    "Notmuch.Props.C37_other",
    "Notmuch.Props.C37_removeAll_succeeds",
    "Notmuch.Props.C37_add_succeeds",
    "Notmuch.Props.C37_long_aborts",
    "Notmuch.Props.C37_equals_refused",
    "Notmuch.Props.C37_removeAll_equals"
   ],
   "note": "a key and value of more than 235 bytes end the process (C37_long_aborts); remove_all with '=' in the key removes properties of other keys (C37_removeAll_equals)"
  },
  {
   "property": "C38",
   "status": "proved",
   "theorems": [
    "Notmuch.Props.C38_log",
    "Notmuch.Props.C38_safe",
    "Notmuch.Props.C38_sound",
    "Notmuch.Props.C38_rename",
    "Notmuch.Props.C38_complete",
    "Notmuch.Props.C38_terminates",
    "Notmuch.Props.C38_replaced",
    "Notmuch.Props.C38_symlink"
   ],
   "note": "completeness needs that no directory was replaced by a file of the same name (C38_replaced) and that a directory with two links has no subdirectories, not even by symbolic link (C38_symlink); the file system does not change during the run; errors of the library during removal are not modelled"
  },
  {
   "property": "C39",
   "status": "proved",
   "theorems": [
    "Notmuch.Props.C39_crash",
    "Notmuch.Props.C39_rerun",
    "Notmuch.Props.C39_history",
    "Notmuch.Props.C39_catches_up",
    "Notmuch.Props.C39_moves",
    "Notmuch.Props.C39_epoch",
    "Notmuch.Props.C39_crash_moved"
   ],
   "note": "directories dated at the epoch are not found after a crash (C39_epoch); a directory moved away and back with its mtime loses mail if a run in between crashed (C39_crash_moved), but not if it ran to its end (C39_moves)"
  },
  {
   "property": "C40",
   "status": "proved",
   "theorems": [
    "Notmuch.Props.C40_json",
    "Notmuch.Props.C40_json_newline",
    "Notmuch.Props.C40_json_unique",
    "Notmuch.Props.C40_json_injective",
    "Notmuch.Props.C40_sexp",
    "Notmuch.Props.C40_sexp_unique",
    "Notmuch.Props.C40_sexp_bad_name",
    "Notmuch.Props.C40_no_control",
    "Notmuch.Props.C40_sexp_nil_remark"
   ],
   "note": "bytes from 128 on are passed through unchanged, so the JSON text is UTF-8 exactly when the strings are; write errors of stdio and the 64-bit range of integers are not modelled"
  },
  {
   "property": "C41",
   "status": "proved",
   "theorems": [
    "Notmuch.Props.C41_crash",
    "Notmuch.Props.C41_durable",
    "Notmuch.Props.C41_failure",
    "Notmuch.Props.C41_keep",
    "Notmuch.Props.C41_indexed",
    "Notmuch.Props.C41_not_indexed",
    "Notmuch.Props.C41_folder",
    "Notmuch.Props.C41_name",
    "Notmuch.Props.C41_create_folder",
    "Notmuch.Props.C41_delivers",
    "Notmuch.Props.C41_folder_refused",
    "Notmuch.Props.C41_interrupted",
    "Notmuch.Props.C41_keep_indexed",
    "Notmuch.Props.C41_from_split",
    "Notmuch.Props.C41_from_alone",
    "Notmuch.Props.C41_options",
    "Notmuch.Props.C41_moved",
    "Notmuch.Props.C41_overwrites"
   ],
   "note": "names in new/ are assumed free (C41_overwrites: otherwise a mail is replaced); counterexamples kept as theorems: a From line cut by read stays (C41_from_split), a first read of exactly \"From \" is an error (C41_from_alone), wrong indexing options leave the file (C41_options), failure after the flag rename leaves it (C41_moved); other processes and symbolic links are not modelled"
  },
  {
   "property": "C42",
   "status": "proved",
   "theorems": [
    "Notmuch.Props.C42_html",
    "Notmuch.Props.C42_html_total",
    "Notmuch.Props.C42_html_unique",
    "Notmuch.Props.C42_text",
    "Notmuch.Props.C42_uuencode",
    "Notmuch.Props.C42_uuencode_found",
    "Notmuch.Props.C42_uuencode_end",
    "Notmuch.Props.C42_discard_size",
    "Notmuch.Props.C42_counterexample_first_letter",
    "Notmuch.Props.C42_counterexample_middle",
    "Notmuch.Props.C42_counterexample_missed",
    "Notmuch.Props.C42_quote",
    "Notmuch.Props.C42_lines",
    "Notmuch.Props.C42_unquote",
    "Notmuch.Props.C42_quote_size",
    "Notmuch.Props.C42_counterexample_unquote"
   ],
   "note": "counterexamples kept as theorems: the first character after a begin line or the data is lost (C42_counterexample_first_letter), a begin line is found within a line (C42_counterexample_middle) or missed there (C42_counterexample_missed), quotes after an empty line are not taken away (C42_counterexample_unquote)"
  },
  {
   "property": "C43",
   "status": "proved",
   "theorems": [
    "Notmuch.Props.C43_exact",
    "Notmuch.Props.C43_true_only",
    "Notmuch.Props.C43_true_all",
    "Notmuch.Props.C43_none",
    "Notmuch.Props.C43_ends",
    "Notmuch.Props.C43_secret",
    "Notmuch.Props.C43_session",
    "Notmuch.Props.C43_stash_only",
    "Notmuch.Props.C43_stash_kept",
    "Notmuch.Props.C43_stash_all",
    "Notmuch.Props.C43_blind",
    "Notmuch.Props.C43_auto_blind",
    "Notmuch.Props.C43_ends_false",
    "Notmuch.Props.C43_reindex_false",
    "Notmuch.Props.C43_subject_only",
    "Notmuch.Props.C43_subject",
    "Notmuch.Props.C43_example",
    "Notmuch.Props.C43_counterexample_nostash",
    "Notmuch.Props.C43_counterexample_forward"
   ],
   "note": "counterexamples kept as theorems: nostash differs from true in the protected subject and the legacy display, although the manual says it does not (C43_counterexample_nostash); a forwarded encrypted message gives its subject to the message that is nothing but the forward (C43_counterexample_forward)"
  },
  {
   "property": "C44",
   "status": "proved",
   "theorems": [
    "Notmuch.Props.C44_show",
    "Notmuch.Props.C44_part",
    "Notmuch.Props.C44_part_none",
    "Notmuch.Props.C44_part_negative",
    "Notmuch.Props.C44_history",
    "Notmuch.Props.C44_index",
    "Notmuch.Props.C44_example"
   ],
   "note": "the tree of parts is given: what a part contains after decryption is that of C43"
  },
  {
   "property": "C45",
   "status": "proved",
   "theorems": [
    "Notmuch.Props.C45_lines",
    "Notmuch.Props.C45_mbox",
    "Notmuch.Props.C45_injective",
    "Notmuch.Props.C45_counterexample_damaged",
    "Notmuch.Props.C45_counterexample_zero",
    "Notmuch.Props.C45_example"
   ],
   "note": "the sender's address and the date line are given (no newline in the first, one at the end of the second); zero bytes and damaged files are counterexamples"
  },
  {
   "property": "C46",
   "status": "proved",
   "theorems": [
    "Notmuch.Props.C46_summary_json",
    "Notmuch.Props.C46_summary_text",
    "Notmuch.Props.C46_threads",
    "Notmuch.Props.C46_messages",
    "Notmuch.Props.C46_files",
    "Notmuch.Props.C46_tags",
    "Notmuch.Props.C46_query",
    "Notmuch.Props.C46_pages",
    "Notmuch.Props.C46_counterexample_overflow",
    "Notmuch.Props.C46_counterexample_star",
    "Notmuch.Props.C46_counterexample_tag",
    "Notmuch.Props.C46_remark_duplicate",
    "Notmuch.Props.C46_example"
   ],
   "note": "the query is given parsed (C25); an overflowing sum of offset and limit, tags with newlines, and the tags of `*` are counterexamples"
  },
  {
   "property": "C47",
   "status": "proved",
   "theorems": [
    "Notmuch.Props.C47_no",
    "Notmuch.Props.C47_mailbox",
    "Notmuch.Props.C47_count",
    "Notmuch.Props.C47_address",
    "Notmuch.Props.C47_most_frequent",
    "Notmuch.Props.C47_refused",
    "Notmuch.Props.C47_example"
   ],
   "note": "what GMime makes of a header is given, and how it writes a name and address; counters do not overflow"
  },
  {
   "property": "C48",
   "status": "proved",
   "theorems": [
    "Notmuch.Props.C48_features",
    "Notmuch.Props.C48_roundtrip",
    "Notmuch.Props.C48_open",
    "Notmuch.Props.C48_flags",
    "Notmuch.Props.C48_version_text",
    "Notmuch.Props.C48_upgrade",
    "Notmuch.Props.C48_upgrade_atomic",
    "Notmuch.Props.C48_counterexample_retry",
    "Notmuch.Props.C48_thread_ids",
    "Notmuch.Props.C48_create",
    "Notmuch.Props.C48_counterexample_version",
    "Notmuch.Props.C48_example"
   ],
   "note": "terms of messages other than file names are not part of this model; Xapian's transactions are atomic (assumed); the lists that the upgrade walks are those of its start; the upper bound of values that Xapian keeps is taken to be exact. C48_counterexample_retry: a program that retries a failed upgrade on the same handle gets success but missing messages lose their threads"
  },
  {
   "property": "C49",
   "status": "proved",
   "theorems": [
    "Notmuch.Props.C49_reply_all",
    "Notmuch.Props.C49_reply_sender",
    "Notmuch.Props.C49_sender",
    "Notmuch.Props.C49_not_self",
    "Notmuch.Props.C49_reply_to",
    "Notmuch.Props.C49_from",
    "Notmuch.Props.C49_from_choice",
    "Notmuch.Props.C49_from_received",
    "Notmuch.Props.C49_domain",
    "Notmuch.Props.C49_subject",
    "Notmuch.Props.C49_threading",
    "Notmuch.Props.C49_references",
    "Notmuch.Props.C49_counterexample_domain"
   ],
   "note": "GMime's parsing and printing of addresses and headers is not modelled; case is that of the C locale. C49_counterexample_domain: two dots in the host of a Received header make any address with the word before them match"
  },
  {
   "property": "C50",
   "status": "proved",
   "theorems": [
    "Notmuch.Props.C50_safe",
    "Notmuch.Props.C50_done",
    "Notmuch.Props.C50_in_place",
    "Notmuch.Props.C50_refuse",
    "Notmuch.Props.C50_counterexample_gap",
    "Notmuch.Props.C50_counterexample_two"
   ],
   "note": "paths are flat, without links; rename is atomic and writes reach the disk in order (assumed); what Xapian's compact yields is assumed. C50_counterexample_two: three programs can make a compaction lose the database"
  },
  {
   "property": "C51",
   "status": "proved",
   "theorems": [
    "Notmuch.Props.C51_values",
    "Notmuch.Props.C51_list_roundtrip",
    "Notmuch.Props.C51_counterexample_backslash",
    "Notmuch.Props.C51_bool",
    "Notmuch.Props.C51_xdg_directory",
    "Notmuch.Props.C51_defaults",
    "Notmuch.Props.C51_config_file",
    "Notmuch.Props.C51_config_file_none",
    "Notmuch.Props.C51_database_path",
    "Notmuch.Props.C51_create_open",
    "Notmuch.Props.C51_value",
    "Notmuch.Props.C51_set_get",
    "Notmuch.Props.C51_set_reopen",
    "Notmuch.Props.C51_counterexample_duplicate",
    "Notmuch.Props.C51_counterexample_env",
    "Notmuch.Props.C51_counterexample_compact",
    "Notmuch.Props.C51_counterexample_backup_dir"
   ],
   "note": "GLib's key file parsing, passwd, HOME unset, NO_MAIL_ROOT and exceptions are not modelled; stat errors other than ENOENT of the XDG directories neither. C51_value and C51_set_* assume that database.path is not in the metadata unless a path was given (C51_counterexample_duplicate)"
  },
  {
   "property": "C52",
   "status": "proved",
   "theorems": [
    "Notmuch.Props.C52_meaning",
    "Notmuch.Props.C52_one_meaning",
    "Notmuch.Props.C52_terminates",
    "Notmuch.Props.C52_no_crash",
    "Notmuch.Props.C52_answer",
    "Notmuch.Props.C52_parameter",
    "Notmuch.Props.C52_macro",
    "Notmuch.Props.C52_number",
    "Notmuch.Props.C52_counterexample_recursion",
    "Notmuch.Props.C52_counterexample_crash",
    "Notmuch.Props.C52_counterexample_starts_with",
    "Notmuch.Props.C52_counterexample_anywhere",
    "Notmuch.Props.C52_counterexample_mimetype",
    "Notmuch.Props.C52_counterexample_matching",
    "Notmuch.Props.C52_counterexample_epoch",
    "Notmuch.Props.C52_counterexample_scope",
    "Notmuch.Props.C52_counterexample_parameters",
    "Notmuch.Props.C52_counterexample_reported"
   ],
   "note": "sfsexp's parser, Xapian's parser, stemmer and matching, regcomp/regexec and parse_time_string are parameters; database errors and strip_trailing's change of a shared atom are not modelled. C52_macro assumes that parameters are not inside date, lastmod, infix, query, matching, of, where they are not looked at (C52_counterexample_parameters), and that saved queries that are no macros have none (C52_counterexample_scope)"
  },
  {
   "property": "C53",
   "status": "proved",
   "theorems": [
    "Notmuch.Props.C53_meaning",
    "Notmuch.Props.C53_one_meaning",
    "Notmuch.Props.C53_error",
    "Notmuch.Props.C53_tables",
    "Notmuch.Props.C53_separator",
    "Notmuch.Props.C53_render",
    "Notmuch.Props.C53_rest",
    "Notmuch.Props.C53_number",
    "Notmuch.Props.C53_counterexample_number",
    "Notmuch.Props.C53_counterexample_include",
    "Notmuch.Props.C53_counterexample_space",
    "Notmuch.Props.C53_counterexample_no_exclude"
   ],
   "note": "messages on stderr are not modelled, nor what commands do with the variables; long is 64 bits and int 32"
  },
  {
   "property": "C54",
   "status": "proved",
   "theorems": [
    "Notmuch.Props.C54_date",
    "Notmuch.Props.C54_days",
    "Notmuch.Props.C54_open",
    "Notmuch.Props.C54_bang",
    "Notmuch.Props.C54_month",
    "Notmuch.Props.C54_year",
    "Notmuch.Props.C54_today",
    "Notmuch.Props.C54_now",
    "Notmuch.Props.C54_date_zone",
    "Notmuch.Props.C54_second",
    "Notmuch.Props.C54_minute",
    "Notmuch.Props.C54_second_today",
    "Notmuch.Props.C54_minute_today",
    "Notmuch.Props.C54_time_first",
    "Notmuch.Props.C54_ago",
    "Notmuch.Props.C54_yesterday",
    "Notmuch.Props.C54_ago_query",
    "Notmuch.Props.C54_ago_zone",
    "Notmuch.Props.C54_ago_order",
    "Notmuch.Props.C54_weekday",
    "Notmuch.Props.C54_timestamp",
    "Notmuch.Props.C54_range",
    "Notmuch.Props.C54_end",
    "Notmuch.Props.C54_rounding",
    "Notmuch.Props.C54_case",
    "Notmuch.Props.C54_fixed_mono",
    "Notmuch.Props.C54_bad_zone",
    "Notmuch.Props.C54_bad_zone_hours",
    "Notmuch.Props.C54_bad_ordinal",
    "Notmuch.Props.C54_3th",
    "Notmuch.Props.C54_zone_year",
    "Notmuch.Props.C54_m_and_M",
    "Notmuch.Props.C54_dotted_am_pm",
    "Notmuch.Props.C54_february_31",
    "Notmuch.Props.C54_mon",
    "Notmuch.Props.C54_month_before",
    "Notmuch.Props.C54_overflow",
    "Notmuch.Props.C54_minus_one",
    "Notmuch.Props.C54_no_date"
   ],
   "note": "gmtime_r and timegm are modelled (proleptic Gregorian calendar), localtime_r and mktime are parameters; zones with changing offsets only where the theorem says so (a Zone); int overflow, undefined in C, is an error of the model"
  },
  {
   "property": "C55",
   "status": "proved",
   "theorems": [
    "Notmuch.Props.C55_shown",
    "Notmuch.Props.C55_json",
    "Notmuch.Props.C55_sexp",
    "Notmuch.Props.C55_failure",
    "Notmuch.Props.C55_text",
    "Notmuch.Props.C55_text_parts",
    "Notmuch.Props.C55_single",
    "Notmuch.Props.C55_single_only",
    "Notmuch.Props.C55_part",
    "Notmuch.Props.C55_part_none",
    "Notmuch.Props.C55_raw",
    "Notmuch.Props.C55_file",
    "Notmuch.Props.C55_unthreaded",
    "Notmuch.Props.C55_unthreaded_no_replies",
    "Notmuch.Props.C55_reply",
    "Notmuch.Props.C55_plan",
    "Notmuch.Props.C55_extra_twice",
    "Notmuch.Props.C55_sexp_abort",
    "Notmuch.Props.C55_gone_no_null",
    "Notmuch.Props.C55_wrong_file_named",
    "Notmuch.Props.C55_raw_first",
    "Notmuch.Props.C55_unthreaded_offset"
   ],
   "note": "what GMime parses, decrypts and verifies is data; versions of the format from 4 on for the schema; offset + limit does not overflow; text of parts after decoding is data"
  },
  {
   "property": "C56",
   "status": "proved",
   "theorems": [
    "Notmuch.Props.C56_future",
    "Notmuch.Props.C56_minutes",
    "Notmuch.Props.C56_today",
    "Notmuch.Props.C56_yesterday",
    "Notmuch.Props.C56_weekday",
    "Notmuch.Props.C56_month",
    "Notmuch.Props.C56_date",
    "Notmuch.Props.C56_date_search",
    "Notmuch.Props.C56_always",
    "Notmuch.Props.C56_same_text",
    "Notmuch.Props.C56_today_only",
    "Notmuch.Props.C56_long_day",
    "Notmuch.Props.C56_short_day",
    "Notmuch.Props.C56_elapsed",
    "Notmuch.Props.C56_no_time",
    "Notmuch.Props.C56_elapsed_difference"
   ],
   "note": "zones with a fixed offset for the theorems that are not about changing clocks; years 1970 to 9999; C locale; doubles as whole microseconds"
  },
  {
   "property": "C57",
   "status": "proved",
   "theorems": [
    "Notmuch.Props.C57_meaning",
    "Notmuch.Props.C57_one_meaning",
    "Notmuch.Props.C57_terminates",
    "Notmuch.Props.C57_no_crash",
    "Notmuch.Props.C57_answer",
    "Notmuch.Props.C57_status",
    "Notmuch.Props.C57_errors",
    "Notmuch.Props.C57_same_as_sexp",
    "Notmuch.Props.C57_regex_as_sexp",
    "Notmuch.Props.C57_dates",
    "Notmuch.Props.C57_today",
    "Notmuch.Props.C57_source",
    "Notmuch.Props.C57_source_check",
    "Notmuch.Props.C57_source_all",
    "Notmuch.Props.C57_counterexample_tag_slash",
    "Notmuch.Props.C57_counterexample_empty_thread",
    "Notmuch.Props.C57_counterexample_recursion",
    "Notmuch.Props.C57_counterexample_no_query",
    "Notmuch.Props.C57_counterexample_slashes"
   ],
   "note": "Xapian's parser (which splits a text into words, fields and operators) is a parameter, and so are regular expressions, sfsexp and what Model/Sexp has as parameters; the legacy range of plain numbers is left out"
  },
  {
   "property": "C58",
   "status": "proved",
   "theorems": [
    "Notmuch.Props.C58_number",
    "Notmuch.Props.C58_words",
    "Notmuch.Props.C58_options",
    "Notmuch.Props.C58_no_query",
    "Notmuch.Props.C58_batch",
    "Notmuch.Props.C58_batch_file",
    "Notmuch.Props.C58_uuid",
    "Notmuch.Props.C58_batch_words",
    "Notmuch.Props.C58_counterexample_no_sexp",
    "Notmuch.Props.C58_counterexample_nul",
    "Notmuch.Props.C58_example"
   ],
   "note": "queries mean what the model of notmuch search (C42 ff.) takes them to mean; the parser is a parameter; at most 2147483646 messages"
  },
  {
   "property": "C59",
   "status": "proved",
   "theorems": [
    "Notmuch.Props.C59_readers",
    "Notmuch.Props.C59_writers",
    "Notmuch.Props.C59_new",
    "Notmuch.Props.C59_others",
    "Notmuch.Props.C59_none",
    "Notmuch.Props.C59_external",
    "Notmuch.Props.C59_locks",
    "Notmuch.Props.C59_one",
    "Notmuch.Props.C59_version",
    "Notmuch.Props.C59_error",
    "Notmuch.Props.C59_shared",
    "Notmuch.Props.C59_help",
    "Notmuch.Props.C59_new_user",
    "Notmuch.Props.C59_counterexample_config",
    "Notmuch.Props.C59_example"
   ],
   "note": "the library calls and the commands other than count and help are parameters; with emacs support built in or not"
  },
  {
   "property": "C60",
   "status": "proved",
   "theorems": [
    "Notmuch.Props.C60_hook",
    "Notmuch.Props.C60_pre_new",
    "Notmuch.Props.C60_locks",
    "Notmuch.Props.C60_order",
    "Notmuch.Props.C60_status",
    "Notmuch.Props.C60_no_hooks",
    "Notmuch.Props.C60_insert",
    "Notmuch.Props.C60_counterexample_commit",
    "Notmuch.Props.C60_example"
   ],
   "note": "what a hook does, the scan (C14-C16) and the library calls are parameters acting on a state"
  },
  {
   "property": "C61",
   "status": "proved",
   "theorems": [
    "Notmuch.Props.C61_get",
    "Notmuch.Props.C61_get_other",
    "Notmuch.Props.C61_set",
    "Notmuch.Props.C61_set_get",
    "Notmuch.Props.C61_list",
    "Notmuch.Props.C61_database",
    "Notmuch.Props.C61_status",
    "Notmuch.Props.C61_fails",
    "Notmuch.Props.C61_rejects",
    "Notmuch.Props.C61_counterexample_name",
    "Notmuch.Props.C61_counterexample_list",
    "Notmuch.Props.C61_counterexample_utf8",
    "Notmuch.Props.C61_counterexample_no_file",
    "Notmuch.Props.C61_counterexample_dot",
    "Notmuch.Props.C61_counterexample_header",
    "Notmuch.Props.C61_place",
    "Notmuch.Props.C61_utf8"
   ],
   "note": "GLib's key files are modelled by their documented behaviour (escapes, names, UTF-8); writing a file and reading it back is taken from GLib; comments are left out; whether writing succeeds is a parameter; setting database.path (which moves the database) and unsetting database.mail_root are left out of C61_set"
  },
  {
   "property": "C62",
   "status": "proved",
   "theorems": [
    "Notmuch.Props.C62_reads",
    "Notmuch.Props.C62_frozen",
    "Notmuch.Props.C62_partial_files_counterexample",
    "Notmuch.Props.C62_partial_files_abort_counterexample",
    "Notmuch.Props.C62_stale_flag_counterexample",
    "Notmuch.Props.C62_two_objects_counterexample",
    "Notmuch.Props.C62_move_frozen_counterexample"
   ],
   "note": "one object of the message, no other process; exceptions of Xapian only where a directory is not there; arguments for which the process ends (property or file entry too long) are excluded, see C37; sorting functions and directories are parameters"
  },
  {
   "property": "C63",
   "status": "proved",
   "theorems": [
    "Notmuch.Props.C63_terms",
    "Notmuch.Props.C63_message",
    "Notmuch.Props.C63_twice",
    "Notmuch.Props.C63_readonly",
    "Notmuch.Props.C63_command_success",
    "Notmuch.Props.C63_command_failure",
    "Notmuch.Props.C63_command_interrupted",
    "Notmuch.Props.C63_words_lost",
    "Notmuch.Props.C63_headers_fail",
    "Notmuch.Props.C63_two_threads",
    "Notmuch.Props.C63_last_status",
    "Notmuch.Props.C63_exception_deletes",
    "Notmuch.Props.C63_stale_tag",
    "Notmuch.Props.C63_begin_forgotten"
   ],
   "note": "what the headers, links and index of a file give is a parameter of the model (Mail); Xapian exceptions only where a directory is not there; files that end the process (too long entry, thread or property) are excluded by Mail.Ok; C63_message and C63_twice ask that all files give the same thread"
  },
  {
   "property": "C64",
   "status": "proved",
   "theorems": [
    "Notmuch.Props.C64_quote",
    "Notmuch.Props.C64_paths",
    "Notmuch.Props.C64_ids",
    "Notmuch.Props.C64_status",
    "Notmuch.Props.C64_index",
    "Notmuch.Props.C64_commit",
    "Notmuch.Props.C64_commit_again",
    "Notmuch.Props.C64_checkout",
    "Notmuch.Props.C64_transfer",
    "Notmuch.Props.C64_safe_fraction",
    "Notmuch.Props.C64_merge_uncommitted",
    "Notmuch.Props.C64_merge",
    "Notmuch.Props.C64_checkout_again",
    "Notmuch.Props.C64_clone_stops",
    "Notmuch.Props.C64_new_uuid",
    "Notmuch.Props.C64_removed_message",
    "Notmuch.Props.C64_race",
    "Notmuch.Props.C64_tilde",
    "Notmuch.Props.C64_no_module",
    "Notmuch.Props.C64_bad_names",
    "Notmuch.Props.C64_separator",
    "Notmuch.Props.C64_bad_line"
   ],
   "note": "git itself (object store, update-index, diff-index, verify_path) and the hash are parameters, assumed sane (Sane); strings are bytes that are valid UTF-8; the dump is the model of C04, notmuch tag --batch that of C12; ids must be readable line by line and tags names git accepts (Regular), HEAD's tree must be one notmuch-git wrote (Canonical)"
  },
  {
   "property": "C65",
   "status": "proved",
   "theorems": [
    "Notmuch.Props.C65_headers",
    "Notmuch.Props.C65_hash",
    "Notmuch.Props.C65_refused",
    "Notmuch.Props.C65_add",
    "Notmuch.Props.C65_no_entry",
    "Notmuch.Props.C65_history",
    "Notmuch.Props.C65_threads",
    "Notmuch.Props.C65_index_failure_counterexample",
    "Notmuch.Props.C65_index_failure_ghosts_counterexample",
    "Notmuch.Props.C65_end_counterexample"
   ],
   "note": "GMime's parser, the decoders of headers and dates, the entry of the file (C05), the terms of the text (C58) and the order of the hash table are parameters; databases of the current version; Xapian exceptions only where the atomic section begins and ends; fewer than 2^64 threads; no message refers to its own id of more than 189 bytes (C19)"
  },
  {
   "property": "C66",
   "status": "proved",
   "theorems": [
    "Notmuch.Props.C66_seen",
    "Notmuch.Props.C66_crash",
    "Notmuch.Props.C66_success",
    "Notmuch.Props.C66_failure",
    "Notmuch.Props.C66_works",
    "Notmuch.Props.C66_backup",
    "Notmuch.Props.C66_no_upgrade",
    "Notmuch.Props.C66_backup_restores",
    "Notmuch.Props.C66_backup_names",
    "Notmuch.Props.C66_litter_counterexample",
    "Notmuch.Props.C66_not_durable_counterexample"
   ],
   "note": "zlib is a parameter (what it makes of the text and when it writes); the file system is that of C41; dumping to standard output is not modelled; false for a full disk (the process exits and leaves the temporary file: C66_litter_counterexample) and a successful dump may be lost in a crash because the directory is not synced (C66_not_durable_counterexample)"
  },
  {
   "property": "C67",
   "status": "proved",
   "theorems": [
    "Notmuch.Props.C67_ignore_accepted",
    "Notmuch.Props.C67_ignored",
    "Notmuch.Props.C67_left_out",
    "Notmuch.Props.C67_not_left_out",
    "Notmuch.Props.C67_count",
    "Notmuch.Props.C67_count_enough",
    "Notmuch.Props.C67_tags",
    "Notmuch.Props.C67_duplicate_tags",
    "Notmuch.Props.C67_new_tags",
    "Notmuch.Props.C67_report",
    "Notmuch.Props.C67_renames",
    "Notmuch.Props.C67_report_text",
    "Notmuch.Props.C67_count_tmp",
    "Notmuch.Props.C67_long_tag_counterexample"
   ],
   "note": "regcomp and regexec are a parameter; a directory that cannot be read counts as having no files; the number of processed files and the times in the report are not modelled; a file in the tmp of a maildir is counted though it is not added (C67_count_tmp), and a value of new.tags longer than 200 bytes is accepted but never added (C67_long_tag_counterexample)"
  },
  {
   "property": "C68",
   "status": "proved",
   "theorems": [
    "Notmuch.Props.C68_setup",
    "Notmuch.Props.C68_configuration",
    "Notmuch.Props.C68_words",
    "Notmuch.Props.C68_keep",
    "Notmuch.Props.C68_status",
    "Notmuch.Props.C68_ends",
    "Notmuch.Props.C68_unreadable",
    "Notmuch.Props.C68_unsaved",
    "Notmuch.Props.C68_no_directory",
    "Notmuch.Props.C68_last_line",
    "Notmuch.Props.C68_keep_counterexample"
   ],
   "note": "key files as in C61 (GLib writes a file as a whole and reads back what was written); comments and the welcome texts are left out; the code then looks at a freed object (notmuch-setup.c:236-240), which is not modelled; a line that begins with a zero byte reads before the buffer (crash in the model); an address with ; gets a backslash at each run (C68_keep_counterexample)"
  },
  {
   "property": "C69",
   "status": "proved",
   "theorems": [
    "Notmuch.Props.C69_secret",
    "Notmuch.Props.C69_session",
    "Notmuch.Props.C69_stash",
    "Notmuch.Props.C69_reindex",
    "Notmuch.Props.C69_verify",
    "Notmuch.Props.C69_blind",
    "Notmuch.Props.C69_auto_blind",
    "Notmuch.Props.C69_nodes",
    "Notmuch.Props.C69_decrypted",
    "Notmuch.Props.C69_subject_guard",
    "Notmuch.Props.C69_layers",
    "Notmuch.Props.C69_subject",
    "Notmuch.Props.C69_headers",
    "Notmuch.Props.C69_no_control",
    "Notmuch.Props.C69_covered",
    "Notmuch.Props.C69_example",
    "Notmuch.Props.C69_signed_counterexample",
    "Notmuch.Props.C69_full_counterexample"
   ],
   "note": "parts as in C43; GMime's decryption and verification are arbitrary functions of the part; the claim that everything that is shown of a message that counts as signed (or as decrypted in full) is covered by that signature (encryption) does not hold when the layers are not well formed: C69_signed_counterexample, C69_full_counterexample; a part of unknown type crashes the program (crash in the model)"
  },
  {
   "property": "C70",
   "status": "proved",
   "theorems": [
    "Notmuch.Props.C70_one_writer",
    "Notmuch.Props.C70_snapshot",
    "Notmuch.Props.C70_snapshot_there",
    "Notmuch.Props.C70_readonly",
    "Notmuch.Props.C70_closed",
    "Notmuch.Props.C70_atomic",
    "Notmuch.Props.C70_close_keeps",
    "Notmuch.Props.C70_incremental",
    "Notmuch.Props.C70_serial",
    "Notmuch.Props.C70_waits",
    "Notmuch.Props.C70_sections",
    "Notmuch.Props.C70_own",
    "Notmuch.Props.C70_reopened",
    "Notmuch.Props.C70_example",
    "Notmuch.Props.C70_atomic_counterexample",
    "Notmuch.Props.C70_incremental_counterexample",
    "Notmuch.Props.C70_writer_revision_counterexample",
    "Notmuch.Props.C70_config_counterexample",
    "Notmuch.Props.C70_reopen_counterexample"
   ],
   "note": "Xapian is modelled by its documentation (one writer has the lock, readers keep their snapshot, changes are written at any moment outside a transaction); each program has one handle; the database has all features. What does not hold is shown by counterexamples: a handle reopened in an atomic section (C70_atomic_counterexample, C70_incremental_counterexample), a revision learned from a writer that dies (C70_writer_revision_counterexample), the configuration after reopening (C70_config_counterexample), destroying a handle whose reopening failed (C70_reopen_counterexample)"
  },
  {
   "property": "C71",
   "status": "proved",
   "theorems": [
    "Notmuch.Props.C71_timegm",
    "Notmuch.Props.C71_days",
    "Notmuch.Props.C71_timegm_library",
    "Notmuch.Props.C71_strsep",
    "Notmuch.Props.C71_strsep_reply",
    "Notmuch.Props.C71_strcasestr",
    "Notmuch.Props.C71_strcasestr_library",
    "Notmuch.Props.C71_getdelim_safe",
    "Notmuch.Props.C71_getdelim_range",
    "Notmuch.Props.C71_getdelim",
    "Notmuch.Props.C71_getline",
    "Notmuch.Props.C71_example",
    "Notmuch.Props.C71_timegm_counterexample",
    "Notmuch.Props.C71_timegm_overflow_counterexample",
    "Notmuch.Props.C71_getdelim_counterexample"
   ],
   "note": "the stream has no read errors; the C locale; the results are those that C34, C49 and C54 take from the C library (C71_timegm_library, C71_strsep_reply, C71_strcasestr_library). What does not hold: timegm before 1970 and after 2038-01-19 (C71_timegm_counterexample, C71_timegm_overflow_counterexample), and the length that getdelim leaves when the first allocation fails (C71_getdelim_counterexample)"
  },
  {
   "property": "C72",
   "status": "proved",
   "theorems": [
    "Notmuch.Props.C72_once",
    "Notmuch.Props.C72_alive",
    "Notmuch.Props.C72_kept",
    "Notmuch.Props.C72_deleted",
    "Notmuch.Props.C72_destroyed",
    "Notmuch.Props.C72_nothing_left",
    "Notmuch.Props.C72_sample",
    "Notmuch.Props.C72_sample_rollback",
    "Notmuch.Props.C72_ended_iterator",
    "Notmuch.Props.C72_ended_threads",
    "Notmuch.Props.C72_rollback_twice"
   ],
   "note": "no allocation fails; the bindings are used from one thread. What does not hold: messages kept after their iterator came to its end use freed memory (C72_ended_iterator), and an iterator from before a frozen block that ends with an exception is freed twice (C72_rollback_twice)"
  },
  {
   "property": "C73",
   "status": "proved",
   "theorems": [
    "Notmuch.Props.C73_word",
    "Notmuch.Props.C73_stem",
    "Notmuch.Props.C73_phrase",
    "Notmuch.Props.C73_phrase_reindexed",
    "Notmuch.Props.C73_phrase_added",
    "Notmuch.Props.C73_user",
    "Notmuch.Props.C73_names",
    "Notmuch.Props.C73_example",
    "Notmuch.Props.C73_mixed",
    "Notmuch.Props.C73_shadow"
   ],
   "note": "how Xapian cuts texts into words and stems them is a parameter (it makes no words that begin with a capital letter of a prefix). What does not hold: with several files added one by one, phrases that no file has are found too, until the message is reindexed (C73_mixed); a configuration file edited by hand may name another field (C73_shadow)"
  },
  {
   "property": "C74",
   "status": "proved",
   "theorems": [
    "Notmuch.Props.C74_program",
    "Notmuch.Props.C74_hash",
    "Notmuch.Props.C74_decode",
    "Notmuch.Props.C74_decode_ignore",
    "Notmuch.Props.C74_decode_example",
    "Notmuch.Props.C74_example",
    "Notmuch.Props.C74_undecodable_counterexample",
    "Notmuch.Props.C74_pop_counterexample",
    "Notmuch.Props.C74_bytes_counterexample",
    "Notmuch.Props.C74_nul_counterexample",
    "Notmuch.Props.C74_delete_counterexample"
   ],
   "note": "what the classes inherit from collections.abc is modelled as in CPython. What does not hold: comparing the tags with a plain set raises AttributeError (in the specification), a tag or a value that is not UTF-8 cannot be popped and the tags are no subset of themselves (C74_undecodable_counterexample, C74_pop_counterexample), bytes are in the set but not taken away (C74_bytes_counterexample), a NUL cuts a name (C74_nul_counterexample), del of a key with = deletes properties of another key (C74_delete_counterexample)"
  },
  {
   "property": "C75",
   "status": "proved",
   "theorems": [
    "Notmuch.Props.C75_chunks",
    "Notmuch.Props.C75_prompt",
    "Notmuch.Props.C75_prompt_now",
    "Notmuch.Props.C75_printed",
    "Notmuch.Props.C75_printed_prompt",
    "Notmuch.Props.C75_printed_map",
    "Notmuch.Props.C75_printed_list",
    "Notmuch.Props.C75_garbage",
    "Notmuch.Props.C75_not_list",
    "Notmuch.Props.C75_retry_counterexample",
    "Notmuch.Props.C75_end_counterexample",
    "Notmuch.Props.C75_example",
    "Notmuch.Props.C75_example_printed"
   ],
   "note": "read and parse-partial-sexp of Emacs are modelled for the characters notmuch prints. What does not hold: a result that is the symbol retry or end (notmuch prints none) is not told apart from the signal of that name, and then the cuts matter (C75_retry_counterexample, C75_end_counterexample)"
  },
  {
   "property": "C76",
   "status": "proved",
   "theorems": [
    "Notmuch.Props.C76_tag",
    "Notmuch.Props.C76_check",
    "Notmuch.Props.C76_tag_effect",
    "Notmuch.Props.C76_shown",
    "Notmuch.Props.C76_change_list",
    "Notmuch.Props.C76_undo_effect",
    "Notmuch.Props.C76_undo",
    "Notmuch.Props.C76_undo_empty",
    "Notmuch.Props.C76_id_query",
    "Notmuch.Props.C76_id_same",
    "Notmuch.Props.C76_bad_query",
    "Notmuch.Props.C76_undo_counterexample",
    "Notmuch.Props.C76_newline_counterexample",
    "Notmuch.Props.C76_dash_counterexample",
    "Notmuch.Props.C76_example",
    "Notmuch.Props.C76_example_undoable"
   ],
   "note": "composes with C05, C07, C10 and C12. What does not hold: undo of a change that was none, or for a query that depends on the tags, does not restore, and a failed undo is forgotten (C76_undo_counterexample); newlines in changes and queries escape the check (C76_newline_counterexample); +-x and -- pass it (C76_dash_counterexample). Hooks and Unicode blanks in the check are not modelled"
  },
  {
   "property": "C77",
   "status": "proved",
   "theorems": [
    "Notmuch.Props.C77_name",
    "Notmuch.Props.C77_saved",
    "Notmuch.Props.C77_crash",
    "Notmuch.Props.C77_headers",
    "Notmuch.Props.C77_all",
    "Notmuch.Props.C77_keeps",
    "Notmuch.Props.C77_fault",
    "Notmuch.Props.C77_ignore",
    "Notmuch.Props.C77_taken_counterexample",
    "Notmuch.Props.C77_rest_counterexample",
    "Notmuch.Props.C77_example",
    "Notmuch.Props.C77_seen"
   ],
   "note": "what does not hold: if the name is taken in cur/, the function returns t though the message is not saved (C77_taken_counterexample); a crash leaves a file in tmp/ and an error in one folder keeps the message from the rest (C77_rest_counterexample). Power failure, other programs in the maildir, and the path by notmuch insert are not modelled"
  },
  {
   "property": "C78",
   "status": "proved",
   "theorems": [
    "Notmuch.Props.C78_safe",
    "Notmuch.Props.C78_no_leak",
    "Notmuch.Props.C78_gc_keeps",
    "Notmuch.Props.C78_destroyed",
    "Notmuch.Props.C78_lock",
    "Notmuch.Props.C78_gc_lock_counterexample",
    "Notmuch.Props.C78_query_counterexample",
    "Notmuch.Props.C78_twice_counterexample",
    "Notmuch.Props.C78_order_counterexample",
    "Notmuch.Props.C78_example"
   ],
   "note": "the conditions are needed: db.query(x).search_threads.each uses freed memory if the query is collected (C78_query_counterexample), taking the messages of a thread twice does (C78_twice_counterexample), so do forgetting the thread, destroying the database first, and destroying the object of a loop in the loop (C78_order_counterexample); a database that is collected without being closed keeps its lock (C78_gc_lock_counterexample). What the methods compute, and allocation failures, are not modelled"
  },
  {
   "property": "C79",
   "status": "proved",
   "theorems": [
    "Notmuch.Props.C79_resume",
    "Notmuch.Props.C79_not_draft",
    "Notmuch.Props.C79_quote_roundtrip",
    "Notmuch.Props.C79_no_tag",
    "Notmuch.Props.C79_plain",
    "Notmuch.Props.C79_first_line",
    "Notmuch.Props.C79_kept",
    "Notmuch.Props.C79_newest",
    "Notmuch.Props.C79_secure_counterexample",
    "Notmuch.Props.C79_plain_counterexample",
    "Notmuch.Props.C79_mark_counterexample",
    "Notmuch.Props.C79_send_counterexample",
    "Notmuch.Props.C79_example"
   ],
   "note": "the tags have no '<' and the message none of the headers notmuch adds; with a header X-Notmuch-Emacs-Secure the secure tag is lost (C79_secure_counterexample). A secure tag with an attribute after the mode is not seen (C79_plain_counterexample); after a failure of notmuch tag one draft is never marked (C79_mark_counterexample); a failed sending has marked the draft (C79_send_counterexample). Emacs functions on headers and regular expressions are modelled by what they do; the MIME encoding in between is not"
  },
  {
   "property": "C80",
   "status": "proved",
   "theorems": [
    "Notmuch.Props.C80_program",
    "Notmuch.Props.C80_accepts",
    "Notmuch.Props.C80_headers",
    "Notmuch.Props.C80_to_counterexample",
    "Notmuch.Props.C80_dashes_counterexample",
    "Notmuch.Props.C80_print_counterexample",
    "Notmuch.Props.C80_example"
   ],
   "note": "addresses given by --to and without an option run together (C80_to_counterexample), -- is taken for an address (C80_dashes_counterexample), and what --print prints has lost spaces (C80_print_counterexample). The shell is modelled by what the script does; of the Lisp reader there is what such texts need"
  },
  {
   "property": "C81",
   "status": "proved",
   "theorems": [
    "Notmuch.Props.C81_counts",
    "Notmuch.Props.C81_filter",
    "Notmuch.Props.C81_hidden",
    "Notmuch.Props.C81_bad_query",
    "Notmuch.Props.C81_hide_counterexample",
    "Notmuch.Props.C81_table",
    "Notmuch.Props.C81_columns_fit",
    "Notmuch.Props.C81_columns",
    "Notmuch.Props.C81_columns_counterexample",
    "Notmuch.Props.C81_number",
    "Notmuch.Props.C81_example"
   ],
   "note": "a filter function that hides a search makes an error unless there is another filter for counting (C81_hide_counterexample); with a fraction for the width and a label wider than the window there is a division by zero (C81_columns_counterexample)"
  },
  {
   "property": "C82",
   "status": "proved",
   "theorems": [
    "Notmuch.Props.C82_wrap",
    "Notmuch.Props.C82_all",
    "Notmuch.Props.C82_kept",
    "Notmuch.Props.C82_hang_counterexample",
    "Notmuch.Props.C82_error_counterexample",
    "Notmuch.Props.C82_depth_counterexample",
    "Notmuch.Props.C82_width",
    "Notmuch.Props.C82_stop_counterexample",
    "Notmuch.Props.C82_example"
   ],
   "note": "found by the model: a line of as many > as the width, a space and a word is wrapped without end, so that such a message hangs Emacs (C82_hang_counterexample); more > are an error (C82_error_counterexample), so is the depth of a thread near the width of the window (C82_depth_counterexample); long lines near the end may be left alone (C82_stop_counterexample). A character is one column"
  },
  {
   "property": "C83",
   "status": "proved",
   "theorems": [
    "Notmuch.Props.C83_mapping",
    "Notmuch.Props.C83_keys",
    "Notmuch.Props.C83_determined",
    "Notmuch.Props.C83_nul_counterexample",
    "Notmuch.Props.C83_duplicate_counterexample",
    "Notmuch.Props.C83_example"
   ],
   "note": "with database.path stored in the database and none given, the key is twice in the listing, stays listed when deleted, and clear stops at it (C83_duplicate_counterexample); what follows a NUL in a key is ignored (C83_nul_counterexample). Bytes that are not UTF-8 are left out"
  },
  {
   "property": "C84",
   "status": "proved",
   "theorems": [
    "Notmuch.Props.C84_order",
    "Notmuch.Props.C84_readable",
    "Notmuch.Props.C84_joined",
    "Notmuch.Props.C84_outline",
    "Notmuch.Props.C84_subjects",
    "Notmuch.Props.C84_forest_subjects",
    "Notmuch.Props.C84_nil_counterexample",
    "Notmuch.Props.C84_width_counterexample",
    "Notmuch.Props.C84_example"
   ],
   "note": "a thread with the subject nil is shown as ... (C84_nil_counterexample: string= takes the reset value nil for the string \"nil\"); with symbols of no width threads look alike (C84_width_counterexample). Colours, padding and other fields are left out"
  },
  {
   "property": "C85",
   "status": "proved",
   "theorems": [
    "Notmuch.Props.C85_section",
    "Notmuch.Props.C85_abort_quiet",
    "Notmuch.Props.C85_dies",
    "Notmuch.Props.C85_refused",
    "Notmuch.Props.C85_revisions",
    "Notmuch.Props.C85_two_databases_counterexample",
    "Notmuch.Props.C85_exception_counterexample",
    "Notmuch.Props.C85_example"
   ],
   "note": "an exception does not undo the changes of its section (C85_exception_counterexample); of the revisions of two databases each is greater than the other (C85_two_databases_counterexample, functools.total_ordering). force_end is left out"
  },
  {
   "property": "C86",
   "status": "proved",
   "theorems": [
    "Notmuch.Props.C86_safe",
    "Notmuch.Props.C86_words",
    "Notmuch.Props.C86_number",
    "Notmuch.Props.C86_patch",
    "Notmuch.Props.C86_no_number",
    "Notmuch.Props.C86_example"
   ],
   "note": "which characters are letters is that of Emacs' case table, a parameter: the set also has characters whose other case is an ASCII letter. Greedy and backtracking matching is written out by hand"
  },
  {
   "property": "C87",
   "status": "proved",
   "theorems": [
    "Notmuch.Props.C87_read",
    "Notmuch.Props.C87_once",
    "Notmuch.Props.C87_decision",
    "Notmuch.Props.C87_thread",
    "Notmuch.Props.C87_shown",
    "Notmuch.Props.C87_next",
    "Notmuch.Props.C87_neighbours",
    "Notmuch.Props.C87_first",
    "Notmuch.Props.C87_refresh",
    "Notmuch.Props.C87_stale_counterexample",
    "Notmuch.Props.C87_refresh_counterexample",
    "Notmuch.Props.C87_example"
   ],
   "note": "tags and changes are abstract (C76 has them); windows, texts, headers and parts are left out, as are `notmuch tag` failing and leaving for another thread; scrolling only moves point. After what others do no hook runs"
  },
  {
   "property": "C88",
   "status": "proved",
   "theorems": [
    "Notmuch.Props.C88_shown",
    "Notmuch.Props.C88_all",
    "Notmuch.Props.C88_first",
    "Notmuch.Props.C88_twice_counterexample",
    "Notmuch.Props.C88_example"
   ],
   "note": "types and matching are abstract; that hidden parts can be opened with a button is not modelled"
  },
  {
   "property": "C89",
   "status": "proved",
   "theorems": [
    "Notmuch.Props.C89_text",
    "Notmuch.Props.C89_elided",
    "Notmuch.Props.C89_end",
    "Notmuch.Props.C89_blank",
    "Notmuch.Props.C89_again",
    "Notmuch.Props.C89_end_counterexample",
    "Notmuch.Props.C89_example"
   ],
   "note": "the text is that of the part (narrowing is not modelled); greedy matching with backtracking is written out"
  },
  {
   "property": "C90",
   "status": "proved",
   "theorems": [
    "Notmuch.Props.C90_reach",
    "Notmuch.Props.C90_only",
    "Notmuch.Props.C90_alive",
    "Notmuch.Props.C90_back",
    "Notmuch.Props.C90_table",
    "Notmuch.Props.C90_digit_counterexample",
    "Notmuch.Props.C90_prefix_counterexample",
    "Notmuch.Props.C90_example"
   ],
   "note": "which characters have commands in the minibuffer map is a parameter, and such a command ends the run; keys with DEL are excluded; prompts and faces are left out"
  },
  {
   "property": "C91",
   "status": "proved",
   "theorems": [
    "Notmuch.Props.C91_tags",
    "Notmuch.Props.C91_query",
    "Notmuch.Props.C91_place",
    "Notmuch.Props.C91_point",
    "Notmuch.Props.C91_archive",
    "Notmuch.Props.C91_all",
    "Notmuch.Props.C91_offered",
    "Notmuch.Props.C91_next",
    "Notmuch.Props.C91_previous",
    "Notmuch.Props.C91_example",
    "Notmuch.Props.C91_nothing_counterexample"
   ],
   "note": "lines are objects with widths; what notmuch tag does with the query and the changes is C76 and the C model's; previous and last thread assume that the search has ended"
  },
  {
   "property": "C92",
   "status": "proved",
   "theorems": [
    "Notmuch.Props.C92_filter",
    "Notmuch.Props.C92_again",
    "Notmuch.Props.C92_tag",
    "Notmuch.Props.C92_tag_counterexample",
    "Notmuch.Props.C92_xor_counterexample",
    "Notmuch.Props.C92_empty_counterexample",
    "Notmuch.Props.C92_example"
   ],
   "note": "Xapian's grammar is taken from its documentation (it is not in /repo); quoted phrases and prefixes are words; which words contain the word or is a parameter"
  },
  {
   "property": "C93",
   "status": "proved",
   "theorems": [
    "Notmuch.Props.C93_silent",
    "Notmuch.Props.C93_asked",
    "Notmuch.Props.C93_answers",
    "Notmuch.Props.C93_example",
    "Notmuch.Props.C93_spelling_counterexample"
   ],
   "note": "hooks (such as the attachment check) and sending itself are left out; no letter of #secure may be compared equal to <"
  },
  {
   "property": "C94",
   "status": "proved",
   "theorems": [
    "Notmuch.Props.C94_foreign",
    "Notmuch.Props.C94_offered",
    "Notmuch.Props.C94_kept",
    "Notmuch.Props.C94_daily",
    "Notmuch.Props.C94_retry",
    "Notmuch.Props.C94_settings_counterexample",
    "Notmuch.Props.C94_example"
   ],
   "note": "what notmuch address finds is open; partial harvests in the background, company mode and the external command are left out; saving writes the file at once"
  }
 ]
}