{
 "claims": [
  {
   "property": "C01",
   "status": "proved",
   "theorems": [
    "Laurelin.Props.c01_lookup_refines_map",
    "Laurelin.Props.c01_last_write_wins"
   ],
   "note": "refinement of every operation history to a map keyed by folded names"
  },
  {
   "property": "C02",
   "status": "partial",
   "theorems": [
    "Laurelin.Props.c02_iteration_complete",
    "Laurelin.Props.c02_iteration_exact_partial",
    "Laurelin.Props.c02_stale_entry"
   ],
   "note": "exact only when each name is always spelled the same way; overwriting under another casing leaves a stale entry in iteration (negation proved)"
  },
  {
   "property": "C03",
   "status": "proved",
   "theorems": [
    "Laurelin.Props.c03_membership"
   ],
   "note": ""
  },
  {
   "property": "C04",
   "status": "proved",
   "theorems": [
    "Laurelin.Props.c04_defined_decides",
    "Laurelin.Props.c04_default_decides",
    "Laurelin.Props.c04_value_list",
    "Laurelin.Props.c04_errors",
    "Laurelin.Props.c04_errors_raise"
   ],
   "note": ""
  },
  {
   "property": "C05",
   "status": "proved",
   "theorems": [
    "Laurelin.Props.c05_add_modlist",
    "Laurelin.Props.c05_effect",
    "Laurelin.Props.c05_c06_errors_raise"
   ],
   "note": ""
  },
  {
   "property": "C06",
   "status": "proved",
   "theorems": [
    "Laurelin.Props.c06_delete_modlist",
    "Laurelin.Props.c06_effect",
    "Laurelin.Props.c05_c06_errors_raise"
   ],
   "note": ""
  },
  {
   "property": "C07",
   "status": "proved",
   "theorems": [
    "Laurelin.Props.c07_modlist",
    "Laurelin.Props.c07_no_empty_add"
   ],
   "note": ""
  },
  {
   "property": "C08",
   "status": "proved",
   "theorems": [
    "Laurelin.Props.c08_request",
    "Laurelin.Props.c08_at_most_once",
    "Laurelin.Props.c08_mods_not_reusable"
   ],
   "note": "c08_mods_not_reusable is a documented consequence: DELETE_ALL is rewritten in place"
  },
  {
   "property": "C09",
   "status": "proved",
   "theorems": [
    "Laurelin.Props.c09_first_rejection",
    "Laurelin.Props.c09_modify_gate",
    "Laurelin.Props.c09_add_gate"
   ],
   "note": "LDAP.add's validation gate is part of the same _run_validation; see also C54 model"
  },
  {
   "property": "C10",
   "status": "partial",
   "theorems": [
    "Laurelin.Props.c10_modify_step",
    "Laurelin.Props.c10_refresh_step",
    "Laurelin.Props.c10_call_step",
    "Laurelin.Props.c10_mirror_partial",
    "Laurelin.Props.c10_ignored_empty_diverges",
    "Laurelin.Props.c10_clear_absent_diverges",
    "Laurelin.Props.c10_unfetched_add_diverges"
   ],
   "note": "proved for all histories of clean calls; the three excluded cases are false of the code (negations proved)"
  },
  {
   "property": "C100",
   "status": "partial",
   "theorems": [
    "Laurelin.Props.c100_call_partial",
    "Laurelin.Props.c100_mirror_partial",
    "Laurelin.Props.c100_deleted",
    "Laurelin.Props.c100_directory_exists",
    "Laurelin.Props.c100_setting_exists",
    "Laurelin.Props.c100_escaped_comma_witness",
    "Laurelin.Props.c100_validated"
   ],
   "note": "mod_dn and move: RDNs of one attribute whose value needs no escaping, and the attribute of the new RDN has been loaded; values conform to their syntax; attribute names of one call are distinct; delete_child is not given the object's own name. The first is violated by the code, negation proved."
  },
  {
   "property": "C101",
   "status": "partial",
   "theorems": [
    "Laurelin.Props.c101_change_partial",
    "Laurelin.Props.c101_names_partial",
    "Laurelin.Props.c101_cycle",
    "Laurelin.Props.c101_replace_leaves",
    "Laurelin.Props.c101_no_base"
   ],
   "note": "replace_\u2026 replaces each of the two attributes only if the list has values for it, and the recursive methods raise on a cycle of member groups (negations c101_replace_leaves, c101_cycle). Values conform to their syntax; that all names are returned needs a directory in which a lookup has one answer."
  },
  {
   "property": "C102",
   "status": "partial",
   "theorems": [
    "Laurelin.Props.c102_standard",
    "Laurelin.Props.c102_unified_partial",
    "Laurelin.Props.c102_simple",
    "Laurelin.Props.c102_unified_witness",
    "Laurelin.Props.c102_unified_refused",
    "Laurelin.Props.c102_search_partial",
    "Laurelin.Props.c102_no_base"
   ],
   "note": "In the unified syntax (the default) a text can close the conjunction, so entries that are not netgroups are found (c102_unified_witness); proved for the standard syntax and all texts, and for the unified syntax and all texts that are sequences of RFC 4515 filters."
  },
  {
   "property": "C103",
   "status": "partial",
   "theorems": [
    "Laurelin.Props.c103_change_partial",
    "Laurelin.Props.c103_object_class",
    "Laurelin.Props.c103_refused",
    "Laurelin.Props.c103_names_raise"
   ],
   "note": "get_users and get_hosts of an object always raise (negation c103_names_raise); replace_\u2026 replaces each of the two attributes only if the list has values for it (C101). Values conform to their syntax; with strict_modify the object has to show the two attributes."
  },
  {
   "property": "C104",
   "status": "partial",
   "theorems": [
    "Laurelin.Props.c104_history_partial",
    "Laurelin.Props.c104_stale",
    "Laurelin.Props.c104_deleted"
   ],
   "note": "Proved for the unstructured values the entry had when the extension was first used; values added later are lost (negation c104_stale). Hypotheses: keys without '=', a replaced key is spelled as before, and something is left to be written (the code violates the claim otherwise: C52)."
  },
  {
   "property": "C105",
   "status": "partial",
   "theorems": [
    "Laurelin.Props.c105_typed_partial",
    "Laurelin.Props.c105_assign",
    "Laurelin.Props.c105_update",
    "Laurelin.Props.c105_update_attrs",
    "Laurelin.Props.c105_update_refused",
    "Laurelin.Props.c105_update_cut",
    "Laurelin.Props.c105_setdefault",
    "Laurelin.Props.c105_setdefault_lost",
    "Laurelin.Props.c105_copied",
    "Laurelin.Props.c105_separate",
    "Laurelin.Props.c105_shared",
    "Laurelin.Props.c105_remove",
    "Laurelin.Props.c105_update_stale"
   ],
   "note": "The code violates the claim for lists shared with an AttrsDict (c105_shared), the return value of setdefault (c105_setdefault_lost) and updates with DELETE_ALL (c105_update_cut); the rest is proved in full."
  },
  {
   "property": "C106",
   "status": "proved",
   "theorems": [
    "Laurelin.Props.c106_start_tls",
    "Laurelin.Props.c106_not_asked",
    "Laurelin.Props.c106_written",
    "Laurelin.Props.c106_starts",
    "Laurelin.Props.c106_intermediate",
    "Laurelin.Props.c106_server_exists",
    "Laurelin.Props.c106_answer"
   ],
   "note": "In full for servers that answer with an extended response. c106_intermediate shows what an intermediate response does. What the handshake checks is C70 and C71; answers sent before the StartTLS response are C71."
  },
  {
   "property": "C107",
   "status": "partial",
   "theorems": [
    "Laurelin.Props.c107_add",
    "Laurelin.Props.c107_modify",
    "Laurelin.Props.c107_other",
    "Laurelin.Props.c107_run",
    "Laurelin.Props.c107_unknown",
    "Laurelin.Props.c107_order",
    "Laurelin.Props.c107_shipped",
    "Laurelin.Props.c107_person",
    "Laurelin.Props.c107_raw",
    "Laurelin.Props.c107_raw_modify",
    "Laurelin.Props.c107_validate",
    "Laurelin.Props.c107_validate_modify"
   ],
   "note": "c107_modify is exact for what the code does, which is less than the claim: c107_unknown shows changes that are sent though not permitted. Values that are not text are left to a parameter."
  },
  {
   "property": "C108",
   "status": "proved",
   "theorems": [
    "Laurelin.Props.c108_answers",
    "Laurelin.Props.c108_shipped",
    "Laurelin.Props.c108_extensible"
   ],
   "note": "In full. c108_extensible shows that the answers and the validator disagree on extensibleObject; conformance of accepted objects is C35 and C78."
  },
  {
   "property": "C109",
   "status": "proved",
   "theorems": [
    "Laurelin.Props.c109_attrs"
   ],
   "note": "In full for the list that is asked for; what the search then sends is C01 and C36."
  },
  {
   "property": "C11",
   "status": "proved",
   "theorems": [
    "Laurelin.Props.c11_failed_modify_unchanged"
   ],
   "note": ""
  },
  {
   "property": "C12",
   "status": "proved",
   "theorems": [
    "Laurelin.Props.c12_add_accepted",
    "Laurelin.Props.c12_delete_accepted",
    "Laurelin.Props.c12_duplicate_rejected"
   ],
   "note": "distinct names/values needed, shown by c12_duplicate_rejected"
  },
  {
   "property": "C13",
   "status": "proved",
   "theorems": [
    "Laurelin.Props.c13_only_commit_sends",
    "Laurelin.Props.c13_nothing_sent",
    "Laurelin.Props.c13_staged_in_order",
    "Laurelin.Props.c13_rejected_not_staged",
    "Laurelin.Props.c13_commit_is_one_modify",
    "Laurelin.Props.c13_transaction"
   ],
   "note": ""
  },
  {
   "property": "C14",
   "status": "proved",
   "theorems": [
    "Laurelin.Props.c14_exit_discards",
    "Laurelin.Props.c14_checkpoint_left",
    "Laurelin.Props.c14_checkpoint_commit",
    "Laurelin.Props.c14_reachable",
    "Laurelin.Props.c14_failed_commit_retry"
   ],
   "note": "c14_failed_commit_retry documents that retrying a failed commit drops a staged DELETE_ALL"
  },
  {
   "property": "C15",
   "status": "proved",
   "theorems": [
    "Laurelin.Props.c15_scoped",
    "Laurelin.Props.c15_reentry_hangs"
   ],
   "note": ""
  },
  {
   "property": "C16",
   "status": "proved",
   "theorems": [
    "Laurelin.Props.c16_standard_in_unified",
    "Laurelin.Props.c16_languages",
    "Laurelin.Props.c16_only_ldap_error",
    "Laurelin.Props.c16_unambiguous"
   ],
   "note": ""
  },
  {
   "property": "C17",
   "status": "proved",
   "theorems": [
    "Laurelin.Props.c17_simple_in_unified",
    "Laurelin.Props.c16_languages"
   ],
   "note": ""
  },
  {
   "property": "C18",
   "status": "proved",
   "theorems": [
    "Laurelin.Props.c18_round_trip",
    "Laurelin.Props.c18_print_injective",
    "Laurelin.Props.c18_excluded"
   ],
   "note": "WellFormed spells out the filters that have an RFC 4515 text; c18_excluded shows the two excluded shapes do fail"
  },
  {
   "property": "C19",
   "status": "partial",
   "theorems": [
    "Laurelin.Props.c19_no_injection",
    "Laurelin.Props.c19_accepted_partial",
    "Laurelin.Props.c19_backslash"
   ],
   "note": "structure is safe for every value; values with a backslash may be refused or misread (negation proved)"
  },
  {
   "property": "C20",
   "status": "partial",
   "theorems": [
    "Laurelin.Props.c20_decode_partial",
    "Laurelin.Props.c20_injective_partial",
    "Laurelin.Props.c20_not_injective",
    "Laurelin.Props.c20_not_decoded"
   ],
   "note": "false for values containing a backslash; escapes are never decoded before sending (negations proved)"
  },
  {
   "property": "C21",
   "status": "proved",
   "theorems": [
    "Laurelin.Props.c21_precedence"
   ],
   "note": ""
  },
  {
   "property": "C22",
   "status": "partial",
   "theorems": [
    "Laurelin.Props.c22_short_partial",
    "Laurelin.Props.c22_exact",
    "Laurelin.Props.c22_refused"
   ],
   "note": "multi-digit OID arcs are refused by the grammar (negation proved); c22_exact characterises what is accepted"
  },
  {
   "property": "C23",
   "status": "partial",
   "theorems": [
    "Laurelin.Props.c23_single_reader",
    "Laurelin.Props.c23_routing_partial",
    "Laurelin.Props.c23_recv_one_partial",
    "Laurelin.Props.c23_unsolicited",
    "Laurelin.Props.c23_recv_one_loses",
    "Laurelin.Props.c23_split_lost",
    "Laurelin.Props.c23_reordered",
    "Laurelin.Props.c23_eof_ignored"
   ],
   "note": "one reader: proved for every chunking; several readers: proved for the disciplined interleavings; the rest is false of the code (negations proved)"
  },
  {
   "property": "C24",
   "status": "proved",
   "theorems": [
    "Laurelin.Props.c24_never_reused",
    "Laurelin.Props.c24_consecutive"
   ],
   "note": ""
  },
  {
   "property": "C25",
   "status": "partial",
   "theorems": [
    "Laurelin.Props.c25_open_while_used_partial",
    "Laurelin.Props.c25_reconnect_partial",
    "Laurelin.Props.c25_no_scheme",
    "Laurelin.Props.c25_double_unbind",
    "Laurelin.Props.c25_failed_init_leaks",
    "Laurelin.Props.c25_private_evicts",
    "Laurelin.Props.c25_default_scheme",
    "Laurelin.Props.c25_given_scheme"
   ],
   "note": "false for URIs without scheme and for constructors failing late (negations proved)"
  },
  {
   "property": "C26",
   "status": "partial",
   "theorems": [
    "Laurelin.Props.c26_closed",
    "Laurelin.Props.c26_simple_bind",
    "Laurelin.Props.c26_sasl_bind_partial",
    "Laurelin.Props.c26_only_bind_binds",
    "Laurelin.Props.c26_extended_unchecked",
    "Laurelin.Props.c26_dse_closed"
   ],
   "note": "false for extended requests on a closed connection and after a failed SASL re-check (negations proved)"
  },
  {
   "property": "C27",
   "status": "partial",
   "theorems": [
    "Laurelin.Props.c27_downgrade_partial",
    "Laurelin.Props.c27_mechanism",
    "Laurelin.Props.c27_left_bound"
   ],
   "note": "detection and negotiation proved; 'not left bound' is false (c27_left_bound)"
  },
  {
   "property": "C28",
   "status": "proved",
   "theorems": [
    "Laurelin.Props.c28_tag",
    "Laurelin.Props.c28_create",
    "Laurelin.Props.c28_stays",
    "Laurelin.Props.c56_tagged_search"
   ],
   "note": ""
  },
  {
   "property": "C29",
   "status": "partial",
   "theorems": [
    "Laurelin.Props.c29_get",
    "Laurelin.Props.c29_exists",
    "Laurelin.Props.c29_failed_search",
    "Laurelin.Props.c29_no_verdict",
    "Laurelin.Props.c29_reference_counts"
   ],
   "note": "proved by number of results; references are counted as results, so the claim about entries is false when a reference is received (c29_reference_counts)"
  },
  {
   "property": "C30",
   "status": "proved",
   "theorems": [
    "Laurelin.Props.c30_attached",
    "Laurelin.Props.c30_refused",
    "Laurelin.Props.c30_others_untouched"
   ],
   "note": ""
  },
  {
   "property": "C31",
   "status": "partial",
   "theorems": [
    "Laurelin.Props.c31_stored_partial",
    "Laurelin.Props.c31_unregistered",
    "Laurelin.Props.c31_noncritical_not_ignored"
   ],
   "note": "exact success condition proved; 'non-critical unknown ignored' is false of the code"
  },
  {
   "property": "C32",
   "status": "partial",
   "theorems": [
    "Laurelin.Props.c32_lookup",
    "Laurelin.Props.c32_duplicates",
    "Laurelin.Props.c32_stable_partial",
    "Laurelin.Props.c32_half_registered",
    "Laurelin.Props.c32_rules_partial",
    "Laurelin.Props.c32_rule_hijacked"
   ],
   "note": "proved: accepted elements are found by OID and any casing of any name, duplicates refused, existing lookups never change, one instance per matching rule when all registrations are accepted. False of the code: a refusal because of a name leaves the OID registered (c32_half_registered), and a refused matching rule can take over the name (c32_rule_hijacked)"
  },
  {
   "property": "C33",
   "status": "partial",
   "theorems": [
    "Laurelin.Props.c33_inherited_partial",
    "Laurelin.Props.c33_terminates",
    "Laurelin.Props.c33_second_read_silent",
    "Laurelin.Props.c33_late_definition"
   ],
   "note": "exact for non-circular graphs with defined OIDs, every read order; terminates for every graph; false for an undefined superclass OID (second read silently incomplete), late definition, and circular graphs (example)"
  },
  {
   "property": "C34",
   "status": "proved",
   "theorems": [
    "Laurelin.Props.c34_nearest",
    "Laurelin.Props.c34_default",
    "Laurelin.Props.c34_rule"
   ],
   "note": ""
  },
  {
   "property": "C35",
   "status": "partial",
   "theorems": [
    "Laurelin.Props.c35_exact",
    "Laurelin.Props.c35_sound",
    "Laurelin.Props.c35_complete_partial",
    "Laurelin.Props.c35_case_refused",
    "Laurelin.Props.c35_undefined_type_refused",
    "Laurelin.Props.c35_modify"
   ],
   "note": "accepted => conforms proved in full; conforming objects with names spelled unlike the schema, with extensibleObject, or with undefined attribute types are refused by the code"
  },
  {
   "property": "C36",
   "status": "proved",
   "theorems": [
    "Laurelin.Props.c36_reflexive",
    "Laurelin.Props.c36_symmetric",
    "Laurelin.Props.c36_transitive",
    "Laurelin.Props.c36_interchangeable",
    "Laurelin.Props.c36_case_exact",
    "Laurelin.Props.c36_case_ignore",
    "Laurelin.Props.c36_numeric",
    "Laurelin.Props.c36_telephone",
    "Laurelin.Props.c36_spaces_ignored",
    "Laurelin.Props.c36_case_ignored",
    "Laurelin.Props.c36_ascii_case_ignore",
    "Laurelin.Props.c36_ascii_case_exact",
    "Laurelin.Props.c36_ascii_telephone",
    "Laurelin.Props.c36_ascii_numeric",
    "Laurelin.Props.c36_rfc4518_map",
    "Laurelin.Props.c36_rules_prepare"
   ],
   "note": "case folding and NFKC are parameters with the laws of `UniLaws`; which values are acceptable is C37 (a value beginning with F is refused by the case-exact rules)"
  },
  {
   "property": "C37",
   "status": "partial",
   "theorems": [
    "Laurelin.Props.c37_exact",
    "Laurelin.Props.c37_partial",
    "Laurelin.Props.c37_only_first",
    "Laurelin.Props.c37_counterexamples"
   ],
   "note": "the code tests the first character only, its table forgets U+0350-035F and contains the letter F; exact behaviour and the negation proved"
  },
  {
   "property": "C38",
   "status": "partial",
   "theorems": [
    "Laurelin.Props.c38_lengths_partial",
    "Laurelin.Props.c38_never_matches",
    "Laurelin.Props.c38_multi_rdn",
    "Laurelin.Props.c38_split",
    "Laurelin.Props.c38_read"
   ],
   "note": "false of the code: distinguishedNameMatch never returns True (negation proved); only the length part holds"
  },
  {
   "property": "C39",
   "status": "proved",
   "theorems": [
    "Laurelin.Props.c39_position",
    "Laurelin.Props.c39_failure"
   ],
   "note": "an empty text raises IndexError, not ValueError"
  },
  {
   "property": "C40",
   "status": "proved",
   "theorems": [
    "Laurelin.Props.c40_accepts",
    "Laurelin.Props.c40_separators"
   ],
   "note": ""
  },
  {
   "property": "C41",
   "status": "partial",
   "theorems": [
    "Laurelin.Props.c41_exact",
    "Laurelin.Props.c41_accepts",
    "Laurelin.Props.c41_sound_partial",
    "Laurelin.Props.c41_wildcard_too_wide",
    "Laurelin.Props.c41_wildcard_too_wide'",
    "Laurelin.Props.c41_wildcard_empty_label",
    "Laurelin.Props.c41_no_common_name",
    "Laurelin.Props.c41_verify"
   ],
   "note": "wildcards cover any number of labels in the code (negations proved); certificates without a common name raise KeyError"
  },
  {
   "property": "C42",
   "status": "partial",
   "theorems": [
    "Laurelin.Props.c42_bounded",
    "Laurelin.Props.c42_reversible",
    "Laurelin.Props.c42_lines_clean",
    "Laurelin.Props.c42_output",
    "Laurelin.Props.c42_dn_unbounded"
   ],
   "note": "proved for the lines of attribute values; the DN line is never folded (negation proved), and values ending in a newline are C43's finding"
  },
  {
   "property": "C43",
   "status": "partial",
   "theorems": [
    "Laurelin.Props.c43_form",
    "Laurelin.Props.c43_reads_partial",
    "Laurelin.Props.c43_dn_partial",
    "Laurelin.Props.c43_unambiguous",
    "Laurelin.Props.c43_trailing_newline",
    "Laurelin.Props.c43_read_back_partial",
    "Laurelin.Props.c43_read_back_counterexamples"
   ],
   "note": "UTF-8 and base64 are modelled and proved to round-trip; false for values that are a SAFE-STRING plus a final newline (negation proved); process_ldif strips values and splits lines at form feeds"
  },
  {
   "property": "C44",
   "status": "partial",
   "theorems": [
    "Laurelin.Props.c44_applied_partial",
    "Laurelin.Props.c44_unknown_critical",
    "Laurelin.Props.c44_crlf",
    "Laurelin.Props.c44_comments",
    "Laurelin.Props.c44_colon",
    "Laurelin.Props.c44_counterexamples",
    "Laurelin.Props.c44_delete_attribute",
    "Laurelin.Props.c44_comment_after_control",
    "Laurelin.Props.c44_applied_before_error",
    "Laurelin.Props.c44_last_dash"
   ],
   "note": "proved for files of any length, folding and line ends, with controls, whose values satisfy Record.Good; false otherwise (modify values with a colon, base64 in modify, empty values, blank line after version, clear-text control values, comments after a control line, ...): negations proved"
  },
  {
   "property": "C45",
   "status": "partial",
   "theorems": [
    "Laurelin.Props.c45_dn_unambiguous",
    "Laurelin.Props.c45_rdn",
    "Laurelin.Props.c45_rdn_child_partial",
    "Laurelin.Props.c45_rdn_full",
    "Laurelin.Props.c45_rdn_counterexamples",
    "Laurelin.Props.c45_obj",
    "Laurelin.Props.c45_mod_dn_partial",
    "Laurelin.Props.c45_attrs_partial",
    "Laurelin.Props.c45_mod_dn_counterexamples",
    "Laurelin.Props.c45_move_partial",
    "Laurelin.Props.c45_move_counterexamples",
    "Laurelin.Props.c45_obj_move_partial",
    "Laurelin.Props.c45_delete",
    "Laurelin.Props.c45_move_single_rdn"
   ],
   "note": "Proved for values that need no escaping and DNs without escaped commas; the counterexample theorems show the rest is false of the code (no escaping, cut at an escaped comma, empty base)."
  },
  {
   "property": "C46",
   "status": "partial",
   "theorems": [
    "Laurelin.Props.c46_subtree_partial",
    "Laurelin.Props.c46_one_test",
    "Laurelin.Props.c46_onelevel_partial",
    "Laurelin.Props.c46_refused",
    "Laurelin.Props.c46_counterexamples",
    "Laurelin.Props.c46_too_many"
   ],
   "note": "Proved for RDN values free of filter metacharacters; counterexamples for '*', parentheses and '=' in the RDN."
  },
  {
   "property": "C47",
   "status": "proved",
   "theorems": [
    "Laurelin.Props.c47_components",
    "Laurelin.Props.c47_round_trip",
    "Laurelin.Props.c47_round_trip_dn"
   ],
   "note": ""
  },
  {
   "property": "C48",
   "status": "partial",
   "theorems": [
    "Laurelin.Props.c48_parse_partial",
    "Laurelin.Props.c48_bad_scope",
    "Laurelin.Props.c48_percent",
    "Laurelin.Props.c48_search",
    "Laurelin.Props.c48_noncritical",
    "Laurelin.Props.c48_scope_words"
   ],
   "note": "Parsing proved for URIs without percent-encoding; c48_percent and c48_noncritical show the remaining parts fail in the code."
  },
  {
   "property": "C49",
   "status": "partial",
   "theorems": [
    "Laurelin.Props.c49_casing",
    "Laurelin.Props.c49_accepted",
    "Laurelin.Props.c49_refused",
    "Laurelin.Props.c49_refused_applied",
    "Laurelin.Props.c49_shipped",
    "Laurelin.Props.c49_partly_applied",
    "Laurelin.Props.c49_documented",
    "Laurelin.Props.c49_connect",
    "Laurelin.Props.c49_tls_before_bind",
    "Laurelin.Props.c49_second_load",
    "Laurelin.Props.c49_default_filter_syntax",
    "Laurelin.Props.c49_filter_syntax_word",
    "Laurelin.Props.c49_extensions",
    "Laurelin.Props.c49_repeat_partial",
    "Laurelin.Props.c49_scope_second",
    "Laurelin.Props.c49_shipped_values"
   ],
   "note": "Acceptance, refusal and effect characterised exactly; loading twice is proved only for configurations without StartTLS, binds, scopes and named validators, and c49_second_load shows the rest false of the code. A refused configuration stays partly applied."
  },
  {
   "property": "C50",
   "status": "partial",
   "theorems": [
    "Laurelin.Props.c50_fields",
    "Laurelin.Props.c50_round_trip",
    "Laurelin.Props.c50_round_trip_exact",
    "Laurelin.Props.c50_members",
    "Laurelin.Props.c50_members_only",
    "Laurelin.Props.c50_refused",
    "Laurelin.Props.c50_read_back",
    "Laurelin.Props.c50_comma",
    "Laurelin.Props.c50_newline"
   ],
   "note": "Proved for all inputs; partial because the 'only triples are recognised' clause fails for a triple followed by a newline (c50_newline) and plain names with commas become other users (c50_comma)."
  },
  {
   "property": "C51",
   "status": "partial",
   "theorems": [
    "Laurelin.Props.c51_exact",
    "Laurelin.Props.c51_complete",
    "Laurelin.Props.c51_terminates_partial",
    "Laurelin.Props.c51_cycle",
    "Laurelin.Props.c51_direct",
    "Laurelin.Props.c51_object",
    "Laurelin.Props.c51_object_method",
    "Laurelin.Props.c51_duplicates"
   ],
   "note": "Result exactness for every graph and recursion depth; termination proved for acyclic graphs; cyclic graphs always raise (c51_cycle), the object-level methods always raise (c51_object_method), duplicates and '' users (c51_duplicates)."
  },
  {
   "property": "C52",
   "status": "partial",
   "theorems": [
    "Laurelin.Props.c52_read",
    "Laurelin.Props.c52_history_partial",
    "Laurelin.Props.c52_reread",
    "Laurelin.Props.c52_add_means",
    "Laurelin.Props.c52_replace_means",
    "Laurelin.Props.c52_delete_means",
    "Laurelin.Props.c52_sent",
    "Laurelin.Props.c52_not_connected",
    "Laurelin.Props.c52_last_kept",
    "Laurelin.Props.c52_respelled",
    "Laurelin.Props.c52_key_with_equals",
    "Laurelin.Props.c52_refused_kept",
    "Laurelin.Props.c52_lookup_partial"
   ],
   "note": "Proved for every description list and every sequence of modifications when keys hold no \"=\" and a replaced key keeps its spelling. Outside that the property is false, as proved: c52_respelled (old values stay), c52_key_with_equals, c52_last_kept (nothing is sent for the last value), c52_refused_kept. Lists are values: aliasing of the caller's list is not modelled."
  },
  {
   "property": "C53",
   "status": "partial",
   "theorems": [
    "Laurelin.Props.c53_partial",
    "Laurelin.Props.c53_again",
    "Laurelin.Props.c53_collected",
    "Laurelin.Props.c53_submodule_twice",
    "Laurelin.Props.c53_own_skipped",
    "Laurelin.Props.c53_late_ignored",
    "Laurelin.Props.c53_retry_fails"
   ],
   "note": "Exactly once is proved for every sequence of require calls when no required module is a submodule of another and packages define their own elements first. Outside that it is false, as proved: c53_submodule_twice, c53_own_skipped, c53_late_ignored, c53_retry_fails."
  },
  {
   "property": "C54",
   "status": "proved",
   "theorems": [
    "Laurelin.Props.c54_add",
    "Laurelin.Props.c54_replace",
    "Laurelin.Props.c54_if_not_exists"
   ],
   "note": "add: under hypotheses on the schema's matching (Decides/FoldCompat) and a truthful get; an empty list asks for no value: it clears the attribute, or, if the connection ignores empty lists, leaves the entry as it is (c54_replace says which)."
  },
  {
   "property": "C55",
   "status": "proved",
   "theorems": [
    "Laurelin.Props.c55_verdict",
    "Laurelin.Props.c55_only_verdicts"
   ],
   "note": ""
  },
  {
   "property": "C56",
   "status": "partial",
   "theorems": [
    "Laurelin.Props.c56_iterates",
    "Laurelin.Props.c56_waits",
    "Laurelin.Props.c56_bad_control",
    "Laurelin.Props.c56_reference_raises",
    "Laurelin.Props.c56_reference_closed",
    "Laurelin.Props.c56_referral_hangs",
    "Laurelin.Props.c56_tagged_search",
    "Laurelin.Props.c56_foreign_message",
    "Laurelin.Props.c56_reference_order"
   ],
   "note": "false for references to be fetched and followed referrals (negations proved)"
  },
  {
   "property": "C57",
   "status": "partial",
   "theorems": [
    "Laurelin.Props.c57_bit_string",
    "Laurelin.Props.c57_boolean",
    "Laurelin.Props.c57_country_string",
    "Laurelin.Props.c57_directory_string",
    "Laurelin.Props.c57_ia5_string",
    "Laurelin.Props.c57_numeric_string",
    "Laurelin.Props.c57_printable_string",
    "Laurelin.Props.c57_other_mailbox",
    "Laurelin.Props.c57_telex",
    "Laurelin.Props.c57_postal_address",
    "Laurelin.Props.c57_substring_prefix",
    "Laurelin.Props.c57_substring_partial",
    "Laurelin.Props.c57_integer",
    "Laurelin.Props.c57_oid",
    "Laurelin.Props.c57_oid_partial",
    "Laurelin.Props.c57_fax",
    "Laurelin.Props.c57_dn_partial",
    "Laurelin.Props.c57_dn_shape",
    "Laurelin.Props.c57_delivery_partial",
    "Laurelin.Props.c57_generalized_time",
    "Laurelin.Props.c57_counterexamples"
   ],
   "note": "exact languages proved rule by rule; where they differ from the RFC (trailing newline, 0, misspelt words, missing anchors, leading zeros, DN values) the difference is proved"
  },
  {
   "property": "C58",
   "status": "partial",
   "theorems": [
    "Laurelin.Props.c58_no_cookie",
    "Laurelin.Props.c58_sent",
    "Laurelin.Props.c58_accepted",
    "Laurelin.Props.c58_refused",
    "Laurelin.Props.c58_cookie",
    "Laurelin.Props.c58_cookie_latin1",
    "Laurelin.Props.c58_leftover",
    "Laurelin.Props.c58_cookie_lost",
    "Laurelin.Props.c58_follow_partial",
    "Laurelin.Props.c58_follow_latin1",
    "Laurelin.Props.c58_pages_lost",
    "Laurelin.Props.c58_attribute",
    "Laurelin.Props.c58_decoded",
    "Laurelin.Props.c58_registered",
    "Laurelin.Props.c58_keyword"
   ],
   "note": "BER of the control value is modelled (definite lengths, primitive strings). The text encoding of OctetString is a parameter (pyasn1 version): the cookie is exact whenever its octets decode (always for latin-1); otherwise it is shown as the empty string and paging ends early (c58_cookie_lost, c58_pages_lost)."
  },
  {
   "property": "C59",
   "status": "partial",
   "theorems": [
    "Laurelin.Props.c59_transaction_effect_partial",
    "Laurelin.Props.c59_refresh_resurrects"
   ],
   "note": "the excluded case (non-strict deletion followed by re-adding, which re-reads the server) is false of the code (negation proved)"
  },
  {
   "property": "C60",
   "status": "proved",
   "theorems": [
    "Laurelin.Props.c60_parse_print",
    "Laurelin.Props.c60_trailing_any"
   ],
   "note": "trailing empty any-substrings are dropped (negation c60_trailing_any)"
  },
  {
   "property": "C61",
   "status": "partial",
   "theorems": [
    "Laurelin.Props.c61_consistent",
    "Laurelin.Props.c61_first_stays",
    "Laurelin.Props.c61_found",
    "Laurelin.Props.c61_half_registered",
    "Laurelin.Props.c61_parameters_reserved",
    "Laurelin.Props.c61_new_dn_not_reserved"
   ],
   "note": "'registers nothing of the refused one' is false (c61_half_registered)"
  },
  {
   "property": "C62",
   "status": "partial",
   "theorems": [
    "Laurelin.Props.c62_at_most_one_partial",
    "Laurelin.Props.c62_abandoned_yields_nothing",
    "Laurelin.Props.c62_abandon_raises",
    "Laurelin.Props.c62_exit_done"
   ],
   "note": "clean exit is false of the code: AttributeError (c62_abandon_raises)"
  },
  {
   "property": "C63",
   "status": "proved",
   "theorems": [
    "Laurelin.Props.c63_iter",
    "Laurelin.Props.c63_waits"
   ],
   "note": ""
  },
  {
   "property": "C64",
   "status": "proved",
   "theorems": [
    "Laurelin.Props.c64_success_iff",
    "Laurelin.Props.c64_failure"
   ],
   "note": ""
  },
  {
   "property": "C65",
   "status": "proved",
   "theorems": [
    "Laurelin.Props.c65_sent",
    "Laurelin.Props.c65_refused",
    "Laurelin.Props.c65_wrong_not_sent"
   ],
   "note": "iff characterisation of what is sent, and of the refusals"
  },
  {
   "property": "C66",
   "status": "proved",
   "theorems": [
    "Laurelin.Props.c66_base",
    "Laurelin.Props.c66_unique"
   ],
   "note": ""
  },
  {
   "property": "C67",
   "status": "partial",
   "theorems": [
    "Laurelin.Props.c67_only_netgroups",
    "Laurelin.Props.c67_restricts",
    "Laurelin.Props.c67_selects",
    "Laurelin.Props.c67_escape",
    "Laurelin.Props.c67_expression_refused"
   ],
   "note": "Holds for standard syntax for every text, and in the unified syntax for standard filter texts; false in the unified syntax otherwise (c67_escape, c67_expression_refused)."
  },
  {
   "property": "C68",
   "status": "proved",
   "theorems": [
    "Laurelin.Props.c68_built_in_only",
    "Laurelin.Props.c68_objects_inherit",
    "Laurelin.Props.c68_same_instance",
    "Laurelin.Props.c68_setup_once",
    "Laurelin.Props.c68_name_stays",
    "Laurelin.Props.c68_add",
    "Laurelin.Props.c68_predefined_allowed",
    "Laurelin.Props.c68_refused_was_set_up",
    "Laurelin.Props.c68_proper_instance"
   ],
   "note": "Modules and what their classes do are the parameter World. Finding: a refused extension has been set up all the same."
  },
  {
   "property": "C69",
   "status": "partial",
   "theorems": [
    "Laurelin.Props.c69_attribute_type_iff",
    "Laurelin.Props.c69_attribute_type_read",
    "Laurelin.Props.c69_attribute_type_refused",
    "Laurelin.Props.c69_attribute_type_unambiguous",
    "Laurelin.Props.c69_object_class_iff",
    "Laurelin.Props.c69_object_class_read",
    "Laurelin.Props.c69_object_class_refused",
    "Laurelin.Props.c69_not_several_extensions"
   ],
   "note": "Proved for all texts: exact characterisation of acceptance and of the resulting instance. Partial because the code's language is RFC 4512 without several extensions (c69_not_several_extensions), empty ( ) lists and case-insensitive keywords; with numbers allowing leading zeros; and attribute types must have a NAME."
  },
  {
   "property": "C70",
   "status": "partial",
   "theorems": [
    "Laurelin.Props.c70_ldaps",
    "Laurelin.Props.c70_private",
    "Laurelin.Props.c70_refused",
    "Laurelin.Props.c70_reused",
    "Laurelin.Props.c70_shared_unverified"
   ],
   "note": "Proved for every history for connections of one's own; false for shared sockets, which ignore the TLS settings of later objects (c70_shared_unverified)."
  },
  {
   "property": "C71",
   "status": "partial",
   "theorems": [
    "Laurelin.Props.c71_started",
    "Laurelin.Props.c71_refused",
    "Laurelin.Props.c71_denied",
    "Laurelin.Props.c71_stays",
    "Laurelin.Props.c71_no_way_back",
    "Laurelin.Props.c71_handshake_fails",
    "Laurelin.Props.c71_authentic_partial",
    "Laurelin.Props.c71_forged_dse",
    "Laurelin.Props.c71_intermediate_counts",
    "Laurelin.Props.c71_wrong_host_stays"
   ],
   "note": "Everything sent after start_tls is proved to go through TLS. False of answers: those received in plain text before the handshake are accepted afterwards (c71_forged_dse); an intermediate response counts as grant; a peer with another host's certificate stays usable."
  },
  {
   "property": "C72",
   "status": "partial",
   "theorems": [
    "Laurelin.Props.c72_scheme",
    "Laurelin.Props.c72_no_scheme",
    "Laurelin.Props.c72_tcp",
    "Laurelin.Props.c72_tcp_only",
    "Laurelin.Props.c72_bad_port",
    "Laurelin.Props.c72_ipv6",
    "Laurelin.Props.c72_trailing_slash",
    "Laurelin.Props.c72_ldapi",
    "Laurelin.Props.c72_ldapi_fails",
    "Laurelin.Props.c72_other_scheme",
    "Laurelin.Props.c72_connected",
    "Laurelin.Props.c72_host"
   ],
   "note": "False of IPv6 literals, trailing slashes and schemes in upper case (proved)."
  },
  {
   "property": "C73",
   "status": "partial",
   "theorems": [
    "Laurelin.Props.c73_who_am_i",
    "Laurelin.Props.c73_value",
    "Laurelin.Props.c73_intermediate",
    "Laurelin.Props.c73_taken_once"
   ],
   "note": "An intermediate response is taken for the answer (c73_intermediate)."
  },
  {
   "property": "C74",
   "status": "partial",
   "theorems": [
    "Laurelin.Props.c74_meanings",
    "Laurelin.Props.c74_in",
    "Laurelin.Props.c74_list_sound",
    "Laurelin.Props.c74_list_counterexample",
    "Laurelin.Props.c74_counterexamples"
   ],
   "note": "Proved for ten rules on all values of their languages (string rules: printable ASCII, and not beginning with F for caseExact, see C37). The claim fails for times, object identifiers, first components and unique members (c74_counterexamples), and postal addresses are only found if spaces are the same around line breaks (c74_list_sound, c74_list_counterexample)."
  },
  {
   "property": "C75",
   "status": "partial",
   "theorems": [
    "Laurelin.Props.c75_lookup",
    "Laurelin.Props.c75_rules",
    "Laurelin.Props.c75_validate",
    "Laurelin.Props.c75_decides",
    "Laurelin.Props.c75_in",
    "Laurelin.Props.c75_no_equality",
    "Laurelin.Props.c75_changes",
    "Laurelin.Props.c75_dn_changes",
    "Laurelin.Props.c75_stops",
    "Laurelin.Props.c75_undefined",
    "Laurelin.Props.c75_rule_lookup"
   ],
   "note": "Proved for all schemas without shared names; the English claim is false for types with distinguishedNameMatch (never found: c75_no_equality, c75_dn_changes), generalizedTimeMatch (always found) and types without equality rule (raises)."
  },
  {
   "property": "C76",
   "status": "partial",
   "theorems": [
    "Laurelin.Props.c76_load",
    "Laurelin.Props.c76_rules",
    "Laurelin.Props.c76_in",
    "Laurelin.Props.c76_accepts",
    "Laurelin.Props.c76_classes",
    "Laurelin.Props.c76_spelling",
    "Laurelin.Props.c76_misspelled",
    "Laurelin.Props.c76_object_class",
    "Laurelin.Props.c76_person",
    "Laurelin.Props.c76_permits",
    "Laurelin.Props.c76_flags",
    "Laurelin.Props.c76_server_only"
   ],
   "note": "For every order of loading. Five classes permit an attribute under a spelling other than that of its definition, so that the defined spelling is refused (c76_misspelled)."
  },
  {
   "property": "C77",
   "status": "partial",
   "theorems": [
    "Laurelin.Props.c77_syntaxes",
    "Laurelin.Props.c77_triple",
    "Laurelin.Props.c77_guides",
    "Laurelin.Props.c77_unknown",
    "Laurelin.Props.c77_refused",
    "Laurelin.Props.c77_attributes",
    "Laurelin.Props.c77_values",
    "Laurelin.Props.c77_netgroup_triple",
    "Laurelin.Props.c77_guide_values_partial",
    "Laurelin.Props.c77_enhanced_guide",
    "Laurelin.Props.c77_guide_partial",
    "Laurelin.Props.c77_guide_no_class",
    "Laurelin.Props.c77_criteria_flat",
    "Laurelin.Props.c77_guide_errors",
    "Laurelin.Props.c77_guide_counterexamples",
    "Laurelin.Props.c77_object_class",
    "Laurelin.Props.c77_attribute_type",
    "Laurelin.Props.c77_matching_rule",
    "Laurelin.Props.c77_matching_rule_use",
    "Laurelin.Props.c77_ldap_syntax",
    "Laurelin.Props.c77_content_rule",
    "Laurelin.Props.c77_structure_rule",
    "Laurelin.Props.c77_name_form",
    "Laurelin.Props.c77_descriptions_partial",
    "Laurelin.Props.c77_descriptions_counterexamples",
    "Laurelin.Props.c77_dn",
    "Laurelin.Props.c77_name_uid",
    "Laurelin.Props.c77_delivery",
    "Laurelin.Props.c77_teletex",
    "Laurelin.Props.c77_guide_class",
    "Laurelin.Props.c77_criteria_exact",
    "Laurelin.Props.c77_guide_exact",
    "Laurelin.Props.c77_enhanced_guide_exact",
    "Laurelin.Props.c77_guide_values"
   ],
   "note": "Exact language for all 35 syntaxes and for every shipped type, the guides with criteria nested to any depth among them; the languages differ from the RFCs' where Spec/Syntaxes and Spec/Guide say so (final newline, several defects, lengths enforced, loose criteria), so the code violates the property as stated; every RFC guide (with object class) is accepted."
  },
  {
   "property": "C78",
   "status": "partial",
   "theorems": [
    "Laurelin.Props.c78_accepts",
    "Laurelin.Props.c78_sound",
    "Laurelin.Props.c78_complete_partial",
    "Laurelin.Props.c78_spelling",
    "Laurelin.Props.c78_modify",
    "Laurelin.Props.c76_accepts",
    "Laurelin.Props.c76_person",
    "Laurelin.Props.c78_stops"
   ],
   "note": "The verdict is characterised exactly for all schemas, objects and histories; the English claim fails in one respect: attribute names are compared with their spelling (c78_spelling, c76_person)."
  },
  {
   "property": "C79",
   "status": "partial",
   "theorems": [
    "Laurelin.Props.c79_sent",
    "Laurelin.Props.c79_strict_partial",
    "Laurelin.Props.c79_shortest",
    "Laurelin.Props.c79_out_of_range",
    "Laurelin.Props.c79_true_not_ff"
   ],
   "note": "Everything but one restriction of RFC 4511 5.1: TRUE is sent as 01 instead of FF; c79_strict_partial says exactly which messages are affected."
  },
  {
   "property": "C80",
   "status": "partial",
   "theorems": [
    "Laurelin.Props.c80_entry",
    "Laurelin.Props.c80_done",
    "Laurelin.Props.c80_reference",
    "Laurelin.Props.c80_foreign",
    "Laurelin.Props.c80_result",
    "Laurelin.Props.c80_unexpected",
    "Laurelin.Props.c80_wait",
    "Laurelin.Props.c80_stream",
    "Laurelin.Props.c80_search",
    "Laurelin.Props.c80_extension_refused",
    "Laurelin.Props.c80_well_formed",
    "Laurelin.Props.c80_malformed",
    "Laurelin.Props.c80_exactly",
    "Laurelin.Props.c80_search_controls"
   ],
   "note": "All but the last clause: unknown components at the end of a SEQUENCE make decoding fail (c80_extension_refused)."
  },
  {
   "property": "C81",
   "status": "proved",
   "theorems": [
    "Laurelin.Props.c81_unambiguous",
    "Laurelin.Props.c81_server_reads",
    "Laurelin.Props.c81_search_reads",
    "Laurelin.Props.c81_search_injective",
    "Laurelin.Props.c81_controls_injective"
   ],
   "note": ""
  },
  {
   "property": "C82",
   "status": "partial",
   "theorems": [
    "Laurelin.Props.c82_exchange",
    "Laurelin.Props.c82_only_success",
    "Laurelin.Props.c82_failure",
    "Laurelin.Props.c82_unchecked",
    "Laurelin.Props.c82_layer_early"
   ],
   "note": "The exchange is as claimed while no layer is applied; the mechanism's completion and its view of the server's final credentials are not checked (c82_unchecked), and the layer may be applied one request early (c82_layer_early)."
  },
  {
   "property": "C83",
   "status": "partial",
   "theorems": [
    "Laurelin.Props.c83_sent",
    "Laurelin.Props.c83_read_partial",
    "Laurelin.Props.c83_cut"
   ],
   "note": "Only if each piece received is exactly one buffer; c83_cut shows that cut buffers end reading."
  },
  {
   "property": "C84",
   "status": "proved",
   "theorems": [
    "Laurelin.Props.c84_session"
   ],
   "note": "For answers without response controls (those are C24) that come last in what has arrived: recv_one loses what follows the answer in the same piece (C23, c23_recv_one_loses). An intermediate response to an extended operation is taken as its answer (C73)."
  },
  {
   "property": "C85",
   "status": "partial",
   "theorems": [
    "Laurelin.Props.c85_refresh",
    "Laurelin.Props.c85_not_connected",
    "Laurelin.Props.c85_refresh_all",
    "Laurelin.Props.c85_missing",
    "Laurelin.Props.c85_object_class",
    "Laurelin.Props.c85_never_invented",
    "Laurelin.Props.c85_deleted_stays",
    "Laurelin.Props.c85_class_stale"
   ],
   "note": "Proved for every entry, selection and history. False in one respect: a selected attribute that the server no longer has keeps its old values (c85_deleted_stays), and has_object_class may answer from old classes (c85_class_stale)."
  },
  {
   "property": "C86",
   "status": "partial",
   "theorems": [
    "Laurelin.Props.c86_line_iff",
    "Laurelin.Props.c86_binary_never",
    "Laurelin.Props.c86_describes_partial",
    "Laurelin.Props.c86_delete_all",
    "Laurelin.Props.c86_injection",
    "Laurelin.Props.c86_read_back_partial",
    "Laurelin.Props.c86_same_as_commit",
    "Laurelin.Props.c86_counterexamples",
    "Laurelin.Props.c86_binary_shown"
   ],
   "note": "Proved for SAFE-STRING values (RFC 2849 reading) and for values process_ldif reads (C44). False otherwise: values are never base64 encoded (c86_injection, c86_binary_never) and DELETE_ALL raises TypeError (c86_delete_all)."
  },
  {
   "property": "C87",
   "status": "partial",
   "theorems": [
    "Laurelin.Props.c87_offline",
    "Laurelin.Props.c87_aims",
    "Laurelin.Props.c87_objects",
    "Laurelin.Props.c87_chain",
    "Laurelin.Props.c87_path",
    "Laurelin.Props.c87_failed_add_keeps_tag",
    "Laurelin.Props.c87_keyword_findings",
    "Laurelin.Props.c87_unbound",
    "Laurelin.Props.c87_outcome"
   ],
   "note": "Requests, settings and paths proved in general; the last sentence of the statement is false (c87_failed_add_keeps_tag, c87_keyword_findings)."
  },
  {
   "property": "C88",
   "status": "proved",
   "theorems": [
    "Laurelin.Props.c88_mirror",
    "Laurelin.Props.c88_modify",
    "Laurelin.Props.c88_refresh",
    "Laurelin.Props.c88_server_exists",
    "Laurelin.Props.c88_attrs"
   ],
   "note": "The exclusions of C10 are part of the statement (CleanOver). c88_server_exists shows that conforming servers exist that accept and find."
  },
  {
   "property": "C89",
   "status": "partial",
   "theorems": [
    "Laurelin.Props.c89_session",
    "Laurelin.Props.c89_modify",
    "Laurelin.Props.c89_refresh",
    "Laurelin.Props.c89_intermediate",
    "Laurelin.Props.c89_early_answer",
    "Laurelin.Props.c89_other_entry"
   ],
   "note": "Proved except that an intermediate response counts as the answer to an extended operation; octets assumed to have no length in the form X.690 reserves (as in C80); refresh if references cannot be followed, as is the case (C57)."
  },
  {
   "property": "C90",
   "status": "partial",
   "theorems": [
    "Laurelin.Props.c90_call",
    "Laurelin.Props.c90_history_partial",
    "Laurelin.Props.c90_server_exists",
    "Laurelin.Props.c90_cut_short_witness",
    "Laurelin.Props.c90_read_back"
   ],
   "note": "Proved for histories in which no call but the last raises TagError or TypeError; otherwise false (c90_cut_short_witness). Servers send no references, referrals or response controls."
  },
  {
   "property": "C91",
   "status": "proved",
   "theorems": [
    "Laurelin.Props.c91_add_attrs",
    "Laurelin.Props.c91_delete_attrs",
    "Laurelin.Props.c91_replace_attrs",
    "Laurelin.Props.c91_directory_exists",
    "Laurelin.Props.c91_stale_witness",
    "Laurelin.Props.c91_reference"
   ],
   "note": "The entry changes only by requests on this connection; no aliases are dereferenced to another entry; `current`, if given, is up to date as stated; empty lists only without ignore_empty_list."
  },
  {
   "property": "C92",
   "status": "partial",
   "theorems": [
    "Laurelin.Props.c92_add",
    "Laurelin.Props.c92_replace",
    "Laurelin.Props.c92_if_not_exists",
    "Laurelin.Props.c92_reference",
    "Laurelin.Props.c92_directory_exists",
    "Laurelin.Props.c92_empty_witness"
   ],
   "note": "Proved against servers that send no references (with one, the promise to return an object is false: c92_reference); replace without empty lists (ignored by default, C54); the entry changes only by requests on this connection."
  },
  {
   "property": "C93",
   "status": "proved",
   "theorems": [
    "Laurelin.Props.c93_call",
    "Laurelin.Props.c93_add_attrs",
    "Laurelin.Props.c93_delete_attrs",
    "Laurelin.Props.c93_replace_attrs",
    "Laurelin.Props.c93_if_not_exists",
    "Laurelin.Props.c93_server_exists"
   ],
   "note": "Searches without keywords (a tag may be in use, which is refused), no user-supplied validators, no references from the server."
  },
  {
   "property": "C94",
   "status": "partial",
   "theorems": [
    "Laurelin.Props.c94_applied",
    "Laurelin.Props.c94_unknown_critical",
    "Laurelin.Props.c94_crlf",
    "Laurelin.Props.c94_done",
    "Laurelin.Props.c94_dropped",
    "Laurelin.Props.c94_sent"
   ],
   "note": "Records in the form that the reader gets right (Good, C44); modifications without values only where the connection does not ignore empty lists (with such a connection they are dropped: c94_dropped)."
  },
  {
   "property": "C95",
   "status": "partial",
   "theorems": [
    "Laurelin.Props.c95_reads",
    "Laurelin.Props.c95_commit",
    "Laurelin.Props.c95_effect",
    "Laurelin.Props.c95_original_shows_less",
    "Laurelin.Props.c95_raises_after_change",
    "Laurelin.Props.c95_stage",
    "Laurelin.Props.c95_begin",
    "Laurelin.Props.c95_checkpoint",
    "Laurelin.Props.c95_exit",
    "Laurelin.Props.c95_refresh",
    "Laurelin.Props.c95_refresh_hides"
   ],
   "note": "What is written is proved for all histories and peers. The effect: for add_attrs, replace_attrs (non-empty) and delete_attrs that do not have to fetch attributes changed in the same transaction (false otherwise, C59), on servers that send only the attributes asked for; the original object shows everything only if it had the attributes when the transaction was begun (false otherwise, witnesses)."
  },
  {
   "property": "C96",
   "status": "proved",
   "theorems": [
    "Laurelin.Props.c96_opened",
    "Laurelin.Props.c96_written",
    "Laurelin.Props.c96_learned",
    "Laurelin.Props.c96_unsupported",
    "Laurelin.Props.c96_opens",
    "Laurelin.Props.c96_recheck",
    "Laurelin.Props.c96_reference"
   ],
   "note": "The default filter is taken to be (objectClass=*), its default; c96_opened says what is shown if the server sends no attribute twice. Comparison of OIDs with the root DSE's values is exact equality."
  },
  {
   "property": "C97",
   "status": "proved",
   "theorems": [
    "Laurelin.Props.c97_simple_bind",
    "Laurelin.Props.c97_who_am_i",
    "Laurelin.Props.c97_sasl_bind",
    "Laurelin.Props.c97_written",
    "Laurelin.Props.c97_sasl_written",
    "Laurelin.Props.c97_closed",
    "Laurelin.Props.c97_identity",
    "Laurelin.Props.c97_bound_as",
    "Laurelin.Props.c97_server_exists",
    "Laurelin.Props.c97_bound_though_raised"
   ],
   "note": "SASL mechanisms without a security layer (with one: C82, C83); the socket is not shared (C19 to C22 have shared sockets). c97_bound_as excludes histories in which results were left unread by an exception of the caller's own tag handling, as C90 does."
  },
  {
   "property": "C98",
   "status": "partial",
   "theorems": [
    "Laurelin.Props.c98_ordered_partial",
    "Laurelin.Props.c98_equal_partial",
    "Laurelin.Props.c98_equivalence",
    "Laurelin.Props.c98_spelling",
    "Laurelin.Props.c98_equal_but_different"
   ],
   "note": "Holds for histories that write and pop each name in one spelling (equality, right to left: the two objects together); the code violates the rest, negations proved."
  },
  {
   "property": "C99",
   "status": "partial",
   "theorems": [
    "Laurelin.Props.c99_program_partial",
    "Laurelin.Props.c99_loop_partial",
    "Laurelin.Props.c99_finds_partial",
    "Laurelin.Props.c99_server_exists",
    "Laurelin.Props.c99_cut_witness"
   ],
   "note": "Holds in full when the pieces in which answers to searches arrive are whole messages; the code violates the rest, negation proved. One loop at a time (no loop within a loop)."
  }
 ]
}