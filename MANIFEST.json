{
"claims": [
{
"property": "C01",
"status": "partial",
"theorems": [
"Idm.C01_escape_value_lossless",
"Idm.C01_name_lossless_partial",
"Idm.C01_trailing_blank_fails",
"Idm.C01_name_exact"
],
"note": "value level proved for every value; name level needs attribute types without escapes and a last value not ending in a blank, for which a counterexample is proved. C01_name_exact: a rendered name that ends in a blank is never parsed"
},
{
"property": "C02",
"status": "partial",
"theorems": [
"Idm.C02_normalize_idempotent_partial",
"Idm.C02_trailing_blank_fails",
"Idm.C02_escaped_type_fails",
"Idm.C02_normalize_exact"
],
"note": "false in general; proved for names with ordinary attribute types and no trailing blank"
},
{
"property": "C03",
"status": "partial",
"theorems": [
"Idm.C03_normal_form_iff_same_name_partial",
"Idm.C03_collision",
"Idm.C04_escaped_type_fails"
],
"note": "false for attribute types containing escaped specials; proved otherwise"
},
{
"property": "C04",
"status": "proved",
"theorems": [
"Idm.C04_store_is_a_map",
"Idm.rfc4514_nameOk",
"Idm.C04_escaped_type_fails"
],
"note": "Names valid by RFC 4514 (indeed all names whose attribute types need no escapes), histories of fewer than 2^64 calls. For names that the parser takes although they are not valid see C03 and C04_escaped_type_fails."
},
{
"property": "C05",
"status": "proved",
"theorems": [
"Idm.C05_search_exact"
],
"note": "Names valid by RFC 4514 (indeed all names whose attribute types need no escapes), histories of fewer than 2^64 calls. For names that the parser takes although they are not valid see C03 and C04_escaped_type_fails."
},
{
"property": "C06",
"status": "proved",
"theorems": [
"Idm.C06_parents_first"
],
"note": "Names valid by RFC 4514 (indeed all names whose attribute types need no escapes), histories of fewer than 2^64 calls. For names that the parser takes although they are not valid see C03 and C04_escaped_type_fails."
},
{
"property": "C07",
"status": "proved",
"theorems": [
"Idm.C07_search_terminates",
"Idm.C07_no_cycle"
],
"note": "All names, all histories of fewer than 2^64 calls."
},
{
"property": "C08",
"status": "proved",
"theorems": [
"Idm.C08_refused_changes_nothing"
],
"note": "for every database value and every call"
},
{
"property": "C09",
"status": "proved",
"theorems": [
"Idm.C09_before_or_after",
"Idm.C09_crash_keeps_answered",
"Idm.C09_packet_steps"
],
"note": "Every reachable state of the process (any number of goroutines, interleaved statement by statement); the atomic commit of bbolt is an assumption."
},
{
"property": "C10",
"status": "proved",
"theorems": [
"Idm.C10_parent_exists",
"Idm.C10_nonleaf_kept"
],
"note": "Names valid by RFC 4514 (indeed all names whose attribute types need no escapes), histories of fewer than 2^64 calls. For names that the parser takes although they are not valid see C03 and C04_escaped_type_fails."
},
{
"property": "C100",
"status": "partial",
"theorems": [
"Idm.C100_loads_partial",
"Idm.C100_search_partial",
"Idm.C100_bind_partial",
"Idm.C100_spelling_fails",
"Idm.C100_bind_exact_partial",
"Idm.C100_search_first_partial"
],
"note": "The whole way from the text of an LDIF file through `boltdb load` and `serve` to the answers. Missing: files with a record whose name does not parse (C49_bad_name_fails), and what C33 leaves out for searches. False for records in which userPassword is written in more than one way. C100_bind_exact_partial says which password counts then. C100_search_first_partial: filters with several substring components."
},
{
"property": "C101",
"status": "partial",
"theorems": [
"Idm.C101_serves_partial",
"Idm.C101_search_partial",
"Idm.C101_bind_partial",
"Idm.C101_starts",
"Idm.C101_bad",
"Idm.C101_one_latest"
],
"note": "The whole life of an LDIF server: start, packets and SIGHUPs with whatever is on disk then, single files and directories, good and bad, through the template engine (a parameter here; C105 for the language). The directory from which the config file may include files, which lags behind the main path by one SIGHUP, is part of the history. Missing: what C95 leaves out for searches."
},
{
"property": "C102",
"status": "proved",
"theorems": [
"Idm.C102_db_cut",
"Idm.C102_one_answer",
"Idm.C102_ldif_cut",
"Idm.C102_ldif_one_answer"
],
"note": "A write error is modelled as: the k-th response cannot be written and no later one on that connection can; a response written in part counts as not sent. That the server goes on for other clients is C74 and C85/C86, which range over executions with vanished clients."
},
{
"property": "C103",
"status": "proved",
"theorems": [
"Idm.C103_close_all",
"Idm.C103_close_once"
],
"note": "C103_close_all: all handlers of the map, each once. C103_close_once: any server, schedule and state; the calls are seen in a log that the other handlers leave alone. After a crash of the process, and for a connection blocked forever in a handler, nothing is called."
},
{
"property": "C104",
"status": "partial",
"theorems": [
"Idm.C104_same_for_all_partial",
"Idm.C104_anonymous_fails",
"Idm.C104_password_fails"
],
"note": "False of the code: searches are not restricted at all. Proved instead, for every packet and all settings: what a search is answered does not depend on who asks. So a client that never bound reads everything, password hashes included."
},
{
"property": "C105",
"status": "proved",
"theorems": [
"Idm.C105_template",
"Idm.C105_exact",
"Idm.C105_confined",
"Idm.C105_becomes",
"Idm.C105_fails",
"Idm.C105_outside",
"Idm.C105_variables"
],
"note": "The template language of the standard library is not part of /repo; the part of it that the shipped templates use is modelled, and that the engine agrees with the model there is an assumption (GoEngine), met by a concrete engine. Templates with other actions are not covered."
},
{
"property": "C106",
"status": "partial",
"theorems": [
"Idm.C106_new_partial",
"Idm.C106_life_partial",
"Idm.C106_record_partial",
"Idm.C106_login_partial"
],
"note": "Proved for servers launched from the command line on a new or freshly loaded database file, any number of processes after one another, any requests, schedules and crash points. Missing: what C33 (one-level and base searches over names with escapes or of unusual case, size limits), C22, C88 (commit is assumed atomic and durable) and C90 (LDIF forms outside of the grammar) leave out; requests whose names do not render and parse back (op.Ok)."
},
{
"property": "C107",
"status": "partial",
"theorems": [
"Idm.C107_search_partial",
"Idm.C107_record_partial",
"Idm.C107_bind_partial",
"Idm.C107_one_counts",
"Idm.C107_pages_partial"
],
"note": "Proved for servers launched from the command line, any number of connections, any schedule and any contents of the disk at each look. Paged searches: C107_pages_partial, if the pages are asked for with one paging control and the same search. Missing: searches whose producer gives up because nobody takes entries for a minute or the server shuts down (C85_shutdown_fails), reads of several main files that the disk changes in between (each look sees one disk), and what C95 and C101 leave out."
},
{
"property": "C108",
"status": "partial",
"theorems": [
"Idm.C108_unfilled_fails",
"Idm.C108_filled_partial",
"Idm.C108_login_partial"
],
"note": "False of the text as printed: it contains template variables, which `boltdb load` does not replace, so load ends with exit code 1 and adds nothing (C108_unfilled_fails, for all users). Proved for the text with the variables replaced, behind the entries above the users: it is an LDIF file with one record per user, and users whose password is given can log in at the server started on the loaded database. Input without carriage returns and {{ in its fields, passwords hashed with argon2, names as in C100. That the load succeeds if the names are sorted is C100_loads_partial."
},
{
"property": "C109",
"status": "partial",
"theorems": [
"Idm.C109_served_partial",
"Idm.C109_search_partial",
"Idm.C109_bind_partial",
"Idm.C109_spelling_fails",
"Idm.C109_action_fails",
"Idm.C109_password_fails"
],
"note": "Proved for entries LDIF can express, without attributes that have no values, if the text has no template actions (false otherwise: C109_action_fails), for names and filters both servers answer exactly (C33, C39), filters that are not about passwords (false otherwise: C109_password_fails), and binds with names written as in the database up to case (false otherwise: C109_spelling_fails)."
},
{
"property": "C11",
"status": "proved",
"theorems": [
"Idm.C11_names_unique"
],
"note": "Names valid by RFC 4514 (indeed all names whose attribute types need no escapes), histories of fewer than 2^64 calls. For names that the parser takes although they are not valid see C03 and C04_escaped_type_fails."
},
{
"property": "C110",
"status": "proved",
"theorems": [
"Idm.C110_alone",
"Idm.C110_mixes",
"Idm.C110_related_fails"
],
"note": "For names as in C04. C110_related_fails shows that the condition is needed."
},
{
"property": "C111",
"status": "partial",
"theorems": [
"Idm.C111_never_adds",
"Idm.C111_same_partial",
"Idm.C111_configured",
"Idm.C111_loses_fails"
],
"note": "That nothing is added is proved for all searches without size limit and controls that the server without indexes answers with success. That nothing is lost: for the filters, names and values of C39 (false otherwise: C111_loses_fails)."
},
{
"property": "C112",
"status": "partial",
"theorems": [
"Idm.C112_repeat_partial",
"Idm.C112_wire_partial",
"Idm.C112_values",
"Idm.C112_order_fails"
],
"note": "Proved for all histories, calls and continuations, and on the wire for write requests of the administrator; modifications with several changes of one attribute type keep the values (C112_values) but perhaps not their order (C112_order_fails). Attribute types ASCII."
},
{
"property": "C113",
"status": "partial",
"theorems": [
"Idm.C113_spelling_partial",
"Idm.C113_sharp_fails"
],
"note": "Proved for all histories and all spellings of names on which strings.EqualFold does not disagree with cases.Fold, as is so for all ASCII names; false otherwise (C113_sharp_fails). A rename must name the types of the old RDN alike."
},
{
"property": "C114",
"status": "partial",
"theorems": [
"Idm.C114_add_delete",
"Idm.C114_delete_add",
"Idm.C114_add_values",
"Idm.C114_replace_values",
"Idm.C114_rename_partial",
"Idm.C114_rename_fails",
"Idm.C114_present_fails"
],
"note": "Proved for all histories before and after, for adds, deletes, additions and replacements of values (entries whose attribute names are different up to case and ASCII); for renames the values and all other entries are as before, but the DN is written differently (C114_rename_fails)."
},
{
"property": "C115",
"status": "partial",
"theorems": [
"Idm.C115_filters_partial",
"Idm.C115_walk_partial",
"Idm.C115_attributes_partial",
"Idm.C115_again_partial",
"Idm.C115_ldif_filters_partial",
"Idm.C115_ldif_again_partial",
"Idm.C115_ldif_or_fails",
"Idm.C115_ldif_and_fails"
],
"note": "Proved for all histories, filters, bases and scopes within the limits of C33 (names that parse, plain first RDNs for base-object and one-level searches, no size limit, supported filters); substring filters with any number of components are included. For LDIF files proved within the limits of C39; false where the indexes lose entries (C115_ldif_or_fails, C115_ldif_and_fails)."
},
{
"property": "C116",
"status": "proved",
"theorems": [
"Idm.C116_adds",
"Idm.C116_only",
"Idm.C116_load",
"Idm.C116_ldif_loads",
"Idm.C116_ldif_search",
"Idm.C116_ldif_bind"
],
"note": "For boltdb with names that can be read in full and fewer than 2^64 calls, as in C04 (HistOk). For LDIF files the two servers may have reached their states in any way; the results of the bind are compared for the same config file."
},
{
"property": "C117",
"status": "partial",
"theorems": [
"Idm.C117_codes",
"Idm.C117_bolt_partial",
"Idm.C117_ldif_partial",
"Idm.C117_config_partial",
"Idm.C117_no_password_fails",
"Idm.C117_ldif_fails",
"Idm.C117_config_fails"
],
"note": "Proved for all names whose entry, if there is one, has a password that can be tested, on both servers (with a config file for names that end in the base DN); C117_codes gives the exact code of every refused bind of the database server. False for entries without a usable password (C117_no_password_fails, C117_ldif_fails), and for names outside the base DN in the config file (C117_config_fails)."
},
{
"property": "C118",
"status": "partial",
"theorems": [
"Idm.C118_packet",
"Idm.C118_session_partial",
"Idm.C118_config_partial"
],
"note": "C118_packet: every packet that does not ask to bind, for all states. C118_session_partial and C118_config_partial: whole sessions in which every bind is refused. Missing are binds as records without a usable password and, with a config file, as names outside the base DN: there the answer does tell something (C117_ldif_fails, C117_config_fails)."
},
{
"property": "C119",
"status": "proved",
"theorems": [
"Idm.C119_write",
"Idm.C119_anonymous",
"Idm.C119_user"
],
"note": "C119_write and C119_anonymous for any two databases; C119_user for all packets other than binds and searches and any two histories with the same entry under the name of the client."
},
{
"property": "C12",
"status": "partial",
"theorems": [
"Idm.C12_below_base_partial",
"Idm.C12_below_base_fails"
],
"note": "false as stated: the base entry can be renamed while it is a leaf. Proved for histories without such a rename; names whose attribute types contain escaped special characters are excluded (C04_escaped_type_fails), and histories have fewer than 2^64 calls"
},
{
"property": "C120",
"status": "proved",
"theorems": [
"Idm.C120_loads",
"Idm.C120_search",
"Idm.C120_bind",
"Idm.C120_load"
],
"note": "For files in the format of Spec/LdifFormat and Spec/Served (DataOf: a file, a template without actions, directories with and without the template engine); templates with actions are C105. Searches without size limit and controls; the config users, if there are any, are the same."
},
{
"property": "C121",
"status": "proved",
"theorems": [
"Idm.C121_search",
"Idm.C121_bind"
],
"note": "For histories within HistOk (attribute types of names need no escapes, fewer than 2^64 calls) and searches that end with success both before and after; a filter that cannot be evaluated on some entry ends a search early (C29)."
},
{
"property": "C122",
"status": "proved",
"theorems": [
"Idm.C122_search",
"Idm.C122_bind"
],
"note": "For searches that end with success both before and after; a filter that cannot be evaluated on some entry ends a search early (C29)."
},
{
"property": "C123",
"status": "proved",
"theorems": [
"Idm.C123_search",
"Idm.C123_ldif_search"
],
"note": "Histories within HistOk and base names whose attribute types need no escapes, as for C05."
},
{
"property": "C124",
"status": "proved",
"theorems": [
"Idm.C124_packet",
"Idm.C124_session"
],
"note": "On the decoded packets; answers as decided (their bytes: C76)."
},
{
"property": "C125",
"status": "partial",
"theorems": [
"Idm.C125_types_fails",
"Idm.C125_critical_fails",
"Idm.C125_ignored_partial",
"Idm.C125_ldif_ignored_partial"
],
"note": "False of the code: typesOnly and critical unknown controls are ignored. Proved: that these options, the time limit and the alias option have no influence on either server (on the LDIF server for controls other than paging)."
},
{
"property": "C126",
"status": "partial",
"theorems": [
"Idm.C126_kept_partial",
"Idm.C126_ldif_kept_partial",
"Idm.C126_abandon_fails",
"Idm.C126_compare_fails",
"Idm.C126_bind_fails"
],
"note": "False of the code as stated. Proved for every message: binds, writes and extended requests never end the connection (LDIF binds: under names that are DNs), a search does exactly if its code is not success, all other kinds do. That the process may panic instead is C27."
},
{
"property": "C127",
"status": "partial",
"theorems": [
"Idm.C127_refused_partial",
"Idm.C127_code_fails",
"Idm.C127_change_fails"
],
"note": "False as to the result codes: unknown versions, bind methods and extended operations are always answered with another code than RFC 4511 prescribes, an unknown kind of change with 84. Proved for every server: the request is answered once with an error of the right kind and has no other effect."
},
{
"property": "C128",
"status": "proved",
"theorems": [
"Idm.C128_given"
],
"note": "For every history and search at the level of the wire; attribute types of adds and modifications are ASCII and names have attribute types that need no escapes (as in C04)."
},
{
"property": "C129",
"status": "partial",
"theorems": [
"Idm.C129_stays_partial",
"Idm.C129_spelling_fails"
],
"note": "Proved for all histories in which entries are added with attribute types that are ASCII and different up to case; false for an attribute type in two spellings."
},
{
"property": "C13",
"status": "partial",
"theorems": [
"Idm.C13_rename_partial",
"Idm.C13_repeated_type_fails"
],
"note": "false for an old RDN with two values of one type (only the last is removed); names whose attribute types contain escaped special characters are excluded (C04_escaped_type_fails), and histories have fewer than 2^64 calls. For such RDNs the last conjunct of C13_rename_partial says what the values are"
},
{
"property": "C130",
"status": "proved",
"theorems": [
"Idm.C130_exists",
"Idm.C130_count"
],
"note": "For all histories (names and lengths as in C04). The number of entries is stated for histories that do not rename the base entry, as in the property."
},
{
"property": "C131",
"status": "proved",
"theorems": [
"Idm.C131_sent",
"Idm.C131_admin"
],
"note": "For histories with names as in C04, ASCII attribute types, fewer than 2^64 calls, and the atomic, durable commits of C88."
},
{
"property": "C132",
"status": "partial",
"theorems": [
"Idm.C132_added_partial",
"Idm.C132_modified_partial",
"Idm.C132_kept_partial",
"Idm.C132_renamed_partial",
"Idm.C132_moved_partial",
"Idm.C132_modified_moved_partial"
],
"note": "For histories with names as in C04, ASCII attribute types, fewer than 2^64 calls, and the atomic, durable commits of C88. C132_renamed, C132_moved and C132_modified_moved: values that were there in the beginning, or were sent with an acknowledged add or modify, are found under the new name of an entry that was renamed. Missing: entries with one attribute type in two spellings, where it fails (C129_spelling_fails), and entries renamed more than once."
},
{
"property": "C133",
"status": "partial",
"theorems": [
"Idm.C133_gone_partial",
"Idm.C133_two_deletes_fails",
"Idm.C133_moved_partial"
],
"note": "False if the request has another deletion of the same attribute type afterwards (C133_two_deletes_fails); proved otherwise, for histories with names as in C04, ASCII attribute types, fewer than 2^64 calls, and the atomic, durable commits of C88. Missing: entries with one attribute type in two spellings. C133_moved: the value is not there under the new name of an entry that was renamed either, unless it is in the new RDN."
},
{
"property": "C134",
"status": "partial",
"theorems": [
"Idm.C134_fresh_partial"
],
"note": "For histories with names as in C04, ASCII attribute types, fewer than 2^64 calls, and the atomic, durable commits of C88. Missing: entries with one attribute type in two spellings."
},
{
"property": "C14",
"status": "proved",
"theorems": [
"Idm.C14_fresh_start"
],
"note": "Names valid by RFC 4514 (indeed all names whose attribute types need no escapes), histories of fewer than 2^64 calls. For names that the parser takes although they are not valid see C03 and C04_escaped_type_fails."
},
{
"property": "C15",
"status": "partial",
"theorems": [
"Idm.C15_sequential_partial",
"Idm.C15_sequential_fails",
"Idm.C15_values_partial"
],
"note": "false in general (a delete of a value added earlier in the same request removes the whole attribute); proved for change lists whose deletes do not touch an attribute changed earlier. C15_values_partial says what the values are after any list of changes"
},
{
"property": "C16",
"status": "proved",
"theorems": [
"Idm.C16_modify_touches_only_named"
],
"note": ""
},
{
"property": "C17",
"status": "partial",
"theorems": [
"Idm.C17_add_is_union_partial",
"Idm.C17_replace_is_exact_partial",
"Idm.C17_delete_is_difference_partial",
"Idm.C17_empty_attribute_disappears",
"Idm.C17_duplicate_names_fails",
"Idm.C17_all_entries_partial"
],
"note": "proved for entries whose attribute names are distinct up to case; false otherwise. C17_all_entries_partial says what happens to every entry and list of changes"
},
{
"property": "C18",
"status": "partial",
"theorems": [
"Idm.C18_refused_iff_removes_rdn_value",
"Idm.C18_rdn_values_kept_partial",
"Idm.C18_duplicate_names_fails",
"Idm.C18_request_refused_iff"
],
"note": "refusal characterised for every request; preservation needs attribute names distinct up to case"
},
{
"property": "C19",
"status": "partial",
"theorems": [
"Idm.C19_anonymous_changes_nothing",
"Idm.C19_unbound_connection_changes_nothing",
"Idm.C19_writes_refused_partial",
"Idm.C19_stats_fails",
"Idm.C19_overlapping"
],
"note": "No change: all packets, all schedules. Answer 50: all packets, unless statistics are on (add hangs) or a control makes go-ldap panic."
},
{
"property": "C20",
"status": "proved",
"theorems": [
"Idm.C20_non_admin_packet",
"Idm.C20_without_admin"
],
"note": "All packets, all schedules of any number of connections, over databases of any history. Names valid by RFC 4514 (indeed all names whose attribute types need no escapes), histories of fewer than 2^64 calls. For names that the parser takes although they are not valid see C03 and C04_escaped_type_fails."
},
{
"property": "C21",
"status": "proved",
"theorems": [
"Idm.C21_identity",
"Idm.C21_log",
"Idm.C21_identity_all_connections",
"Idm.C21_overlapping"
],
"note": "For every set of handlers, one connection and any schedule of many connections."
},
{
"property": "C22",
"status": "proved",
"theorems": [
"Idm.C22_bind_exact",
"Idm.C22_needs_password"
],
"note": "For every history of store calls and every bind packet on any connection: success iff MayBind, else refused and identity kept. Names valid by RFC 4514 (indeed all names whose attribute types need no escapes), histories of fewer than 2^64 calls. For names that the parser takes although they are not valid see C03 and C04_escaped_type_fails."
},
{
"property": "C23",
"status": "partial",
"theorems": [
"Idm.C23_cleartext",
"Idm.C23_argon2_roundtrip",
"Idm.C23_cleartext_roundtrip_partial",
"Idm.C23_argon2",
"Idm.C23_crypt",
"Idm.C23_ssha",
"Idm.C23_unknown_scheme",
"Idm.C23_never_false",
"Idm.C23_cleartext_brace_fails",
"Idm.C23_panics"
],
"note": "False of the code for cleartext passwords of the form {x}y and for the empty password (C23_cleartext_brace_fails): Hash stores them unchanged and Validate reads them as an unknown scheme. Argon2, SHA-1, crypt and base64 are abstract functions; the only law used is that Argon2 create/compare round trips. C23_panics says exactly which stored values end a comparison in a panic."
},
{
"property": "C24",
"status": "proved",
"theorems": [
"Idm.C24_generated",
"Idm.C24_generated_total"
],
"note": "Random source is an arbitrary function."
},
{
"property": "C25",
"status": "partial",
"theorems": [
"Idm.C25_generated_password_fails",
"Idm.C25_generated_password_partial"
],
"note": "False of the code: the response carries the Argon2 hash, with which a bind is refused. Proved: the password generated (never sent) has the configured length and binds."
},
{
"property": "C26",
"status": "partial",
"theorems": [
"Idm.C26_change_takes_effect_partial",
"Idm.C26_old_password_checked_partial",
"Idm.C26_ligature_fails",
"Idm.C26_renamed_base_fails"
],
"note": "End to end over any history: exop answered with success, then bind with the new password succeeds; wrong old password refused, nothing changed. Missing: users not below the base text (false there: C26_renamed_base_fails), non-ASCII attribute names (false there: C26_ligature_fails), escaped types."
},
{
"property": "C27",
"status": "partial",
"theorems": [
"Idm.C27_crash_causes_partial",
"Idm.C27_hang_causes_partial",
"Idm.C27_anonymous_partial",
"Idm.C27_writes_safe",
"Idm.C27_searches_safe",
"Idm.C27_binds_safe",
"Idm.C27_substring_fails",
"Idm.C27_change_fails",
"Idm.C27_not_owner_fails",
"Idm.C27_root_fails",
"Idm.C27_old_password_fails",
"Idm.C27_control_fails"
],
"note": "False of the code as stated: the complete list of causes is proved for every packet after every history, and each cause is shown real by a concrete packet. Not modelled: panics inside the BER reader and stack exhaustion by nested filters."
},
{
"property": "C28",
"status": "partial",
"theorems": [
"Idm.C28_ids",
"Idm.C28_one_final_partial",
"Idm.C28_closed",
"Idm.C28_stats_fails"
],
"note": "For every set of handlers: ids match; a packet after which the connection goes on was answered by exactly one final response of the matching kind. Fails with metrics on: an add request is never answered (deadlock)."
},
{
"property": "C29",
"status": "partial",
"theorems": [
"Idm.C29_filter_partial",
"Idm.C29_unsupported",
"Idm.C29_no_entry_lost_partial",
"Idm.C29_substring_fails",
"Idm.C29_negated_substring_fails",
"Idm.C29_empty_substring_panics",
"Idm.C29_first_component_partial",
"Idm.C29_first_unsupported_partial"
],
"note": "False of the code for substring filters with more than one component (only the first one is checked) and for empty ones (panic). Proved for all filters of any depth whose substring assertions have one component. For filters with several substring components C29_first_component_partial says exactly what is computed."
},
{
"property": "C30",
"status": "partial",
"theorems": [
"Idm.C30_scope_partial",
"Idm.C30_subtree_partial",
"Idm.C30_bad_name",
"Idm.C30_subtree_fails",
"Idm.C30_escaped_comma_fails",
"Idm.C30_root_fails",
"Idm.C30_semicolon_fails"
],
"note": "False of the code: subtree scope is not checked by the front end, a first RDN with an escaped comma turns into an error, one that ends in a semicolon is cut at the wrong place, and single-level search at the root drops its children. Proved for base and single level and every name whose first RDN ends at its first comma (escapes and non-ASCII included)."
},
{
"property": "C31",
"status": "partial",
"theorems": [
"Idm.C31_selected",
"Idm.C31_once_partial",
"Idm.C31_repeated_fails",
"Idm.C31_times"
],
"note": "False of the code for lists that ask for an attribute twice (it is sent twice); the set of attributes is right for all lists. C31_times: for every list, each attribute is sent as often as it is asked for."
},
{
"property": "C32",
"status": "proved",
"theorems": [
"Idm.C32_size_limit"
],
"note": "Any database, any client, any filter packet: compared with the same search without limit. After sizeLimitExceeded the code closes the connection."
},
{
"property": "C33",
"status": "partial",
"theorems": [
"Idm.C33_search_exact_partial",
"Idm.C33_no_base_partial",
"Idm.C33_names_parse",
"Idm.C33_unparsable_name_fails",
"Idm.C33_escaped_comma_fails",
"Idm.C33_search_first_partial",
"Idm.C33_case_fails"
],
"note": "From packet to responses, after any history. Missing: see the theorem's comment; each missing case is false of the code or listed under C29-C31."
},
{
"property": "C34",
"status": "proved",
"theorems": [
"Idm.C34_only_successful_writes_change",
"Idm.C34_database_is_a_history",
"Idm.C34_overlapping"
],
"note": "Any database, any packet; and any schedule: the database is that of a list of permitted store calls answered with success."
},
{
"property": "C35",
"status": "partial",
"theorems": [
"Idm.C35_longest_partial",
"Idm.C35_any_order_partial",
"Idm.C35_write_goes_to_chosen",
"Idm.C35_tie_fails",
"Idm.C35_middle_fails",
"Idm.C35_case_fails",
"Idm.C35_most_commas"
],
"note": "Any handler map and any DN text. Missing: suffixes with the same number of commas (the iteration order of a Go map then decides, C35_tie_fails), and the reading of suffix as a sequence of RDNs: the code compares text (C35_middle_fails, C35_case_fails). C35_most_commas says for every map and text which handler is chosen."
},
{
"property": "C36",
"status": "proved",
"theorems": [
"Idm.C36_serialisable",
"Idm.C36_packets"
],
"note": "Linearisability of the store calls of all goroutines, and of the packets of all connections of the BoltDB server (C36_packets). Snapshot isolation for readers and the writer lock are assumptions on bbolt."
},
{
"property": "C37",
"status": "partial",
"theorems": [
"Idm.C37_never_sent",
"Idm.C37_blind",
"Idm.C37_default_idx",
"Idm.C37_indexed_fails"
],
"note": "In any reachable state no entry sent has an attribute called userPassword, and two servers whose files differ in passwords only answer every packet other than binds alike, provided userPassword is not indexed (it is not by default). If it is configured as an index attribute the answers depend on it (C37_indexed_fails)."
},
{
"property": "C38",
"status": "partial",
"theorems": [
"Idm.C38_sound_partial",
"Idm.C38_subtree_partial",
"Idm.C38_middle_fails",
"Idm.C38_paged_base_fails",
"Idm.C38_sound_first_partial",
"Idm.C38_escaped_comma_fails"
],
"note": "Holds for filters with one substring component and names whose text tells as much as the name (TextTells, see C39). The subtree is a text suffix: it can match in the middle of an attribute type (C38_middle_fails) or behind an escaped comma (C38_escaped_comma_fails); a later page ignores the base it is asked for at (C38_paged_base_fails). For filters with several substring components C38_sound_first_partial says what is answered. Names may contain UTF-8."
},
{
"property": "C39",
"status": "partial",
"theorems": [
"Idm.C39_search_exact_partial",
"Idm.C39_objectClass_or_fails",
"Idm.C39_negation_fails",
"Idm.C39_substring_case_fails",
"Idm.C39_search_first_partial",
"Idm.C39_case_fails",
"Idm.C39_plain_names",
"Idm.C39_escaped_names",
"Idm.C39_elsewhere",
"Idm.C39_itself",
"Idm.C39_escaped_comma_fails"
],
"note": "Exact result proved for all filters on which the indexes lose nothing (a decidable condition on the filter) and all names whose text tells as much as the name (TextTells): plainly written ones, ones with escapes or several attributes in the first RDN, and all that are elsewhere. Three kinds of filters lose entries, and an escaped comma makes a one-level search fail, with counterexamples. Names whose values EqualFold and ToLower judge differently are excluded (C39_case_fails)."
},
{
"property": "C40",
"status": "proved",
"theorems": [
"Idm.C40_no_duplicates"
],
"note": "For every packet in every reachable state, paged or not."
},
{
"property": "C41",
"status": "partial",
"theorems": [
"Idm.C41_pages_partial",
"Idm.C41_last_page_fails",
"Idm.C41_cut_fails",
"Idm.C41_handed_over",
"Idm.C41_schedules",
"Idm.C41_ldif_schedules",
"Idm.C41_page_contents",
"Idm.C41_first_control"
],
"note": "Pages are a prefix of the full result, all but the last are full, and complete when the cookie is empty. False: a result that fills its pages ends in a refusal instead of an empty cookie; a producer that gives up truncates the result and reports success. C41_handed_over, C41_schedules and C41_page_contents: for every interleaving of producer and request handlers, step by step, also for concurrent use of one cookie. C41_first_control: of several paging controls the first counts, and other or undecodable controls are ignored."
},
{
"property": "C42",
"status": "partial",
"theorems": [
"Idm.C42_continue_partial",
"Idm.C42_abandon_fails",
"Idm.C42_progress",
"Idm.C42_bounded",
"Idm.C42_final",
"Idm.C42_answered",
"Idm.C42_abandon_forever_fails"
],
"note": "A request with the cookie is answered by the next page or refused, and refused only if everything was sent already or the producer gave up. False: abandoning (page size 0) is never answered. C42_answered: under every fair schedule each request that found the cookie is answered."
},
{
"property": "C43",
"status": "proved",
"theorems": [
"Idm.C43_data_unchanged",
"Idm.C43_writes_refused",
"Idm.C43_no_write_succeeds",
"Idm.C43_password_refused"
],
"note": "Every packet in every state for the data; the codes for well-formed requests (others: C79), password changes included. With metrics adds are not answered at all, as the statement says."
},
{
"property": "C44",
"status": "proved",
"theorems": [
"Idm.C44_bind_exact",
"Idm.C44_named",
"Idm.C44_anonymous",
"Idm.C44_search_refused"
],
"note": "Exact characterisation of the answer to every bind without config file. Entries without password value crash the connection handler, which is recovered and closes the connection: such a bind is not answered; the theorems say so."
},
{
"property": "C45",
"status": "partial",
"theorems": [
"Idm.C45_failed_keeps",
"Idm.C45_failed_same_answers",
"Idm.C45_succeeds_replaces",
"Idm.C45_reload_succeeds_iff",
"Idm.C45_reload_reachable",
"Idm.C45_one_version",
"Idm.C45_current_version",
"Idm.C45_middleware_fails"
],
"note": "Proved for the main handler. With a config file a failing reload may have replaced the config data already (C45_middleware_fails)."
},
{
"property": "C46",
"status": "proved",
"theorems": [
"Idm.C46_duplicates_rejected",
"Idm.C46_same_name_rejected",
"Idm.C46_spacing_fails",
"Idm.C46_case_fails"
],
"note": "Equal up to case as texts. Names that differ in spacing only are both loaded (C46_spacing_fails). So are names that are equal under EqualFold but differ in lower case (C46_case_fails)."
},
{
"property": "C47",
"status": "proved",
"theorems": [
"Idm.C47_bind_exact",
"Idm.C47_search_ignores_conf"
],
"note": "Exact characterisation of binds with a config file; the answers to all other packets do not depend on it."
},
{
"property": "C48",
"status": "partial",
"theorems": [
"Idm.C48_export_load_partial",
"Idm.C48_empty_fails",
"Idm.C48_renamed_base_fails",
"Idm.C48_no_value_fails",
"Idm.C48_space_fails"
],
"note": "For every history that does not rename the base entry, with a base entry and entries that LDIF can express: export succeeds, loading the text into an empty database succeeds, and the new database serves the same names with the same values in the same order under every type. False for an empty store, after a rename of the base entry, for entries without values and for printable values that begin with a space."
},
{
"property": "C49",
"status": "partial",
"theorems": [
"Idm.C49_load_stops",
"Idm.C49_load_directory_partial",
"Idm.C49_unreadable",
"Idm.C49_bad_name_fails",
"Idm.C49_version_fails",
"Idm.C49_cut_name_fails"
],
"note": "Proved for all databases and entry lists at the store level, and on the abstract directory for names without escaped types; a file that cannot be read changes nothing. An entry whose name is not a DN crashes load instead of giving an error, or is added under the part of the name that could be read, and so does an empty line after the version of the file (if go-ldap/ldif does not pass over nil records)."
},
{
"property": "C50",
"status": "partial",
"theorems": [
"Idm.C50_entry_of_add_partial",
"Idm.C50_add_stores_partial",
"Idm.C50_repeated_type_fails",
"Idm.C50_last_occurrence",
"Idm.C50_add_stores_last_partial"
],
"note": "false for requests naming a type twice: the last occurrence wins; C50_last_occurrence says what the entry is for every request"
},
{
"property": "C51",
"status": "partial",
"theorems": [
"Idm.C51_copy_partial",
"Idm.C51_between_partial",
"Idm.C51_exact_partial",
"Idm.C51_max_kept",
"Idm.C51_max_zero",
"Idm.C51_max_fails"
],
"note": "Every schedule of single field accesses by any number of connections: a copy of the counters is the tally of one list of events between those finished and those begun; exact when nothing is being counted. The maximum is kept but no copy shows it (always 0)."
},
{
"property": "C52",
"status": "partial",
"theorems": [
"Idm.C52_count_finishes_partial",
"Idm.C52_add_blocks",
"Idm.C52_add_never",
"Idm.C52_adds_fails"
],
"note": "Without add requests every count that was begun can finish from every reachable state. False with add requests: countAdds locks twice, after which no count of any connection ever finishes."
},
{
"property": "C53",
"status": "proved",
"theorems": [
"Idm.C53_confined",
"Idm.C53_opened",
"Idm.C53_reaches"
],
"note": "Paths are text: symbolic links inside the directory are not modelled."
},
{
"property": "C54",
"status": "partial",
"theorems": [
"Idm.C54_fresh_partial",
"Idm.C54_start_partial",
"Idm.C54_set",
"Idm.C54_wrap_fails",
"Idm.C54_files_fails"
],
"note": "False when the 64-bit counter passes its largest number (C54_wrap_fails); proved up to there."
},
{
"property": "C55",
"status": "partial",
"theorems": [
"Idm.C55_unused_partial",
"Idm.C55_consecutive_partial",
"Idm.C55_zero_fails",
"Idm.C55_wrap_fails"
],
"note": "False when a user number 0 is given (C55_zero_fails) and at the end of the 64-bit range (C55_wrap_fails); proved otherwise."
},
{
"property": "C56",
"status": "partial",
"theorems": [
"Idm.C56_reported_partial",
"Idm.C56_too_few",
"Idm.C56_five_fields_fails"
],
"note": "Lines with five or six fields panic (C56_five_fields_fails); proved for all other files."
},
{
"property": "C57",
"status": "proved",
"theorems": [
"Idm.C57_not_lost",
"Idm.C57_due_starts",
"Idm.C57_no_more"
],
"note": "All schedules of signals, reloads, connections and shutdown. That the scheduler lets the reload goroutine run, and that Reload returns, is assumed."
},
{
"property": "C58",
"status": "partial",
"theorems": [
"Idm.C58_closed_partial",
"Idm.C58_still_served_fails",
"Idm.C58_stranded_fails"
],
"note": "False: any number of connections may be served after the signal; proved from the closing of the listener on."
},
{
"property": "C59",
"status": "partial",
"theorems": [
"Idm.C59_filter_text_partial",
"Idm.C59_empty_component_fails",
"Idm.C59_dn_attributes_fails",
"Idm.C59_utf8",
"Idm.C59_bytes_refused"
],
"note": "Filters of every kind, with RFC attribute descriptions and non-empty substring components. Fails for an empty component, and an extensible match with the flag dnAttributes is refused. C59_utf8 and C59_bytes_refused: texts that are not UTF-8 are no filters, and searches that name attributes by such bytes are refused."
},
{
"property": "C60",
"status": "partial",
"theorems": [
"Idm.C60_admin_performs",
"Idm.C60_others_refused",
"Idm.C60_bad_name_refused",
"Idm.C60_admin_directory_partial",
"Idm.C60_metrics_fails"
],
"note": "From packet to response and database. False for adds with metrics enabled (C60_metrics_fails). Missing: for the directory after the write, names that do not parse after rendering."
},
{
"property": "C61",
"status": "partial",
"theorems": [
"Idm.C61_text_names_entry_partial",
"Idm.C61_parses_partial",
"Idm.C61_escaped_type_fails",
"Idm.C61_unparsable_name_fails"
],
"note": "Proved for names whose attribute types need no escapes; false for the others. The DN parses if those of all added entries did; `boltdb load` can add others, for which the statement is false."
},
{
"property": "C62",
"status": "partial",
"theorems": [
"Idm.C62_limit_partial",
"Idm.C62_exceeded_fails",
"Idm.C62_wrap_fails",
"Idm.C62_one_page",
"Idm.C62_paged"
],
"note": "The first n matches are returned, for all limits below 2^32. False: an exceeded limit is reported as success, and limits are taken modulo 2^32. C62_one_page, C62_paged: how a size limit and a page size combine."
},
{
"property": "C63",
"status": "partial",
"theorems": [
"Idm.C63_load_keeps_partial",
"Idm.C63_overwrite_fails"
],
"note": "Load keeps all the entries and adds an initial part of the file; the claim of the help text that the database is overwritten is false."
},
{
"property": "C64",
"status": "partial",
"theorems": [
"Idm.C64_all_lines_partial",
"Idm.C64_long_line_fails",
"Idm.C64_photo_fails"
],
"note": "False: everything from the first line of 64 KiB on is dropped without an error. Proved for files with shorter lines. C64_photo_fails: a user with a photo of 64 KiB or more is read without the photo, the password and all that follows in the file."
},
{
"property": "C65",
"status": "partial",
"theorems": [
"Idm.C65_comments_partial",
"Idm.C65_data_partial",
"Idm.C65_engine_partial",
"Idm.C65_continued_fails",
"Idm.C65_data_fails"
],
"note": "False when a comment is continued on the next line; proved otherwise, for the lines and for the entries read from the file."
},
{
"property": "C66",
"status": "partial",
"theorems": [
"Idm.C66_kept_partial",
"Idm.C66_all_printed",
"Idm.C66_zero_fails",
"Idm.C66_number_read"
],
"note": "False for the number 0; proved otherwise, away from the end of the 64-bit range."
},
{
"property": "C67",
"status": "partial",
"theorems": [
"Idm.C67_given_password",
"Idm.C67_cleartext_partial",
"Idm.C67_cleartext_fails",
"Idm.C67_printed",
"Idm.C67_unknown_scheme",
"Idm.C67_no_password_fails"
],
"note": "The given password is proved for ARGON2 and, with the exception of C23, CLEARTEXT; other schemes print no user with a password and none after one. Users without password get their name as password, so the second half is false. The LDIF text printed around the value is C75."
},
{
"property": "C68",
"status": "partial",
"theorems": [
"Idm.C68_argon2",
"Idm.C68_cleartext_partial",
"Idm.C68_percent_fails"
],
"note": "False for cleartext secrets with a percent sign: the value is used as a format."
},
{
"property": "C69",
"status": "partial",
"theorems": [
"Idm.C69_serves_partial",
"Idm.C69_dead_listener_fails"
],
"note": "False: after one error of Accept the listener serves nothing any more. Proved as long as Accept does not fail."
},
{
"property": "C70",
"status": "partial",
"theorems": [
"Idm.C70_only_on_signal",
"Idm.C70_taken_partial",
"Idm.C70_dropped_fails",
"Idm.C70_early_fails"
],
"note": "False when a reload signal waits to be taken (the termination signal is dropped) and while the server starts (a reload signal sent after it said ready can end it at once, as signals are not caught yet). Proved otherwise, unless the server shuts down already because a listener could not be opened."
},
{
"property": "C71",
"status": "proved",
"theorems": [
"Idm.C71_returns",
"Idm.C71_second_signal",
"Idm.C71_clean"
],
"note": "Shown as: from every reachable state of a shutdown a run to the end exists that needs neither signals nor connections; fairness of the scheduler is assumed."
},
{
"property": "C72",
"status": "partial",
"theorems": [
"Idm.C72_directory",
"Idm.C72_entries_partial",
"Idm.C72_version_fails",
"Idm.C72_templates_partial",
"Idm.C72_version_partial"
],
"note": "The text template language is a parameter. The directory path contains no pattern characters (`*`, `?`, `[`, `\\`); reading that breaks off is looked at in C92. C72_directory speaks of the records as pieces of text, C72_entries_partial of the entries read. False for files with a version: the second version makes the load fail. C72_templates_partial: the same through the template engine, for files without actions. C72_version_partial: whatever the template engine makes of the files, the first file with a version or without."
},
{
"property": "C73",
"status": "proved",
"theorems": [
"Idm.C73_variables",
"Idm.C73_with"
],
"note": "String variables."
},
{
"property": "C74",
"status": "proved",
"theorems": [
"Idm.C74_no_deadlock",
"Idm.C74_answered"
],
"note": "BoltDB server. In every reachable state there are steps of the goroutines that end in the answer, so the scheduler only has to be fair. At most 2^64 entries and packets. Network writes that block are not modelled."
},
{
"property": "C75",
"status": "partial",
"theorems": [
"Idm.C75_records",
"Idm.C75_ldif_partial",
"Idm.C75_values",
"Idm.C75_numbers",
"Idm.C75_number_text",
"Idm.C75_dn_partial",
"Idm.C75_dn_fails"
],
"note": "Any field contents; the hash has no line feed. Spaces around a value are lost to the LDIF reader (C75_values says which values are read back unchanged). The DN is right for names of letters, digits and ._-@; other names are put into it unescaped. The default template; text below 2^64 bytes. C75_ldif_partial: the text is an LDIF file in the grammar of C90, for values without carriage returns."
},
{
"property": "C76",
"status": "partial",
"theorems": [
"Idm.C76_reply",
"Idm.C76_stream",
"Idm.C76_codes_bolt",
"Idm.C76_codes_ldif",
"Idm.C76_compare_fails",
"Idm.C76_undefined_code_fails"
],
"note": "Every response either server decides on (for any bytes received) is sent as BER that says it, and the stream of bytes can be read in one way only. Missing: compare requests are answered with the type of a request, and code 84 is not an RFC 4511 code. The texts of result messages are arbitrary."
},
{
"property": "C77",
"status": "proved",
"theorems": [
"Idm.C77_read",
"Idm.C77_incomplete",
"Idm.C77_chunks",
"Idm.C77_requests",
"Idm.C77_requests_controls",
"Idm.C77_paging",
"Idm.C77_pages",
"Idm.C77_password",
"Idm.C77_connection",
"Idm.C77_any_bytes",
"Idm.C77_other_controls"
],
"note": "For definite-length BER with tags below 31 (RFC 4511 section 5.1) and messages shorter than 2 GiB. The reader is modelled from the published source of go-asn1-ber."
},
{
"property": "C78",
"status": "partial",
"theorems": [
"Idm.C78_read_partial",
"Idm.C78_same_entry_partial",
"Idm.C78_blank_after_backslash_fails"
],
"note": "Missing: a name that ends in an escaped blank (C01_trailing_blank_fails), a blank after an escaped backslash (C78_blank_after_backslash_fails), values spelled #hex (BER)."
},
{
"property": "C79",
"status": "partial",
"theorems": [
"Idm.C79_writes_partial",
"Idm.C79_bind",
"Idm.C79_password_partial",
"Idm.C79_search_partial",
"Idm.C79_kind_fails",
"Idm.C79_password_fails"
],
"note": "Exact for every packet (adds: without metrics), searches included (C79_search_partial: the packets taken for a search, and that each is served like the canonical form of what it says): Spec/WellFormed says which trees are taken for a request. It is more than RFC 4511 allows: see C79_kind_fails and C79_password_fails and the head of Spec/WellFormed. A modify without parts ends the process (C27)."
},
{
"property": "C80",
"status": "proved",
"theorems": [
"Idm.C80_options"
],
"note": "All environments and command lines, as pflag has split them; what the files contain is arbitrary."
},
{
"property": "C81",
"status": "proved",
"theorems": [
"Idm.C81_outcome",
"Idm.C81_tls",
"Idm.C81_ldif_base_fails",
"Idm.C81_base_partial",
"Idm.C81_blank_base_fails"
],
"note": "All outcomes. C81_ldif_base_fails shows a consequence: the LDIF server refuses a base DN that is spelled with a blank, the database server accepts it. C81_base_partial: the base DN served is the one given, for names that do not end in a blank; with one that does the server starts but nothing can be written to a new database (C81_blank_base_fails)."
},
{
"property": "C82",
"status": "partial",
"theorems": [
"Idm.C82_administrator_partial",
"Idm.C82_no_administrator_partial"
],
"note": "For the database server; with metrics, for all requests but adds (false there: C60_metrics_fails). Names as in C78."
},
{
"property": "C83",
"status": "proved",
"theorems": [
"Idm.C83_not_ignored",
"Idm.C83_reported",
"Idm.C83_error_exit",
"Idm.C83_exit_code"
],
"note": "All schedules. If a termination signal is taken before the error the server returns without one."
},
{
"property": "C84",
"status": "partial",
"theorems": [
"Idm.C84_ready_fails",
"Idm.C84_once_partial"
],
"note": "False: the server says it is ready without waiting for its listeners. Proved: at most once, and it can at any time until it returns."
},
{
"property": "C85",
"status": "partial",
"theorems": [
"Idm.C85_overlapping_partial",
"Idm.C85_one_version",
"Idm.C85_bind_reload_fails",
"Idm.C85_shutdown_fails"
],
"note": "Proved for every request that is not paged (pages: C86) and whose producer does not give up; a bind with a config file in force looks at two moments. The two exceptions are counterexamples to the full statement."
},
{
"property": "C86",
"status": "proved",
"theorems": [
"Idm.C86_pages",
"Idm.C86_whole"
],
"note": "C86_pages: one list of entries of one version of the data, shared out. C86_whole: that list is what the same search without paging would be answered with at one moment since it arrived. Under the assumption that the random cookie is made only once, and for the completeness that the producer did not give up (see C41)."
},
{
"property": "C87",
"status": "partial",
"theorems": [
"Idm.C87_crash_causes_partial",
"Idm.C87_answered_partial",
"Idm.C87_substring_fails",
"Idm.C87_change_fails",
"Idm.C87_abandon_fails"
],
"note": "For every packet without the contents listed in Spec/LdifAlive; that these do crash the server or block the connection is shown by the _fails theorems."
},
{
"property": "C88",
"status": "partial",
"theorems": [
"Idm.C88_exactly_once",
"Idm.C88_directory_partial",
"Idm.C88_added_is_found_partial",
"Idm.C88_deleted_is_gone_partial",
"Idm.C88_renamed_is_found_partial",
"Idm.C88_old_name_is_gone_partial",
"Idm.C88_added_as_sent_partial",
"Idm.C88_password_partial",
"Idm.C88_answers"
],
"note": "C88_exactly_once is the whole claim about the file. What searches then see is proved for names whose attribute types need no escapes (C04_escaped_type_fails) and fewer than 2^64 calls. C88_renamed_is_found and C88_old_name_is_gone: a renamed entry is found under the new name, however that is written, and not under the old one. C88_added_as_sent: the entry is found with the values that were sent. C88_password: a changed password is the one that counts after every restart; attribute types must be ASCII (C26)."
},
{
"property": "C89",
"status": "partial",
"theorems": [
"Idm.C89_what_is_printed_partial",
"Idm.C89_accepts",
"Idm.C89_unreadable_file_fails",
"Idm.C89_file_newline_fails"
],
"note": "False of the code for a secret file that cannot be read. What is printed for cleartext secrets is C68."
},
{
"property": "C90",
"status": "partial",
"theorems": [
"Idm.C90_read_partial",
"Idm.C90_loaded_partial",
"Idm.C90_one_reading"
],
"note": "For all content files in the grammar of Spec/LdifFormat: lines ended by LF or CR LF, folding, comments, base64, version. Missing: values from URLs, empty values directly after the colon, change records; they depend on parts of go-ldap/ldif that are parameters."
},
{
"property": "C91",
"status": "partial",
"theorems": [
"Idm.C91_write",
"Idm.C91_export_partial"
],
"note": "C91_write for all lists of entries LDIF can express; C91_export_partial for the histories of C48 (base entry present and never renamed)."
},
{
"property": "C92",
"status": "partial",
"theorems": [
"Idm.C92_faulty_refused",
"Idm.C92_unreadable_partial",
"Idm.C92_directory_unreadable_partial",
"Idm.C92_directory_faulty_partial",
"Idm.C92_broken_fails"
],
"note": "Files with change records are not considered. A file whose reading breaks off is refused only without the template engine; as a template what was read before is loaded without an error (C92_broken_fails)."
},
{
"property": "C93",
"status": "partial",
"theorems": [
"Idm.C93_login_partial",
"Idm.C93_exact_partial",
"Idm.C93_file_partial",
"Idm.C93_no_password_fails",
"Idm.C93_template_fails",
"Idm.C93_becomes_partial",
"Idm.C93_files_partial",
"Idm.C93_served_partial",
"Idm.C93_served_login_partial"
],
"note": "For input without carriage returns and {{ in its fields and lines below 64 KiB; the template engine is any function that replaces variables as Spec/Login says, argon2 hashes contain no line breaks and braces. The served theorems are about idmd serve itself: launched with options, the printed file as (one of) its main files, any packets and SIGHUPs (C99, C101, C105). False without: {{ in a field is executed by the server; users without password get their name as password."
},
{
"property": "C94",
"status": "proved",
"theorems": [
"Idm.C94_names",
"Idm.C94_address"
],
"note": "The expression is written down in Spec/UserNames with a general matching relation; the code's test is proved equal to it (Go's regexp itself is trusted to implement the expression; the model has the equivalent loop-free test)."
},
{
"property": "C95",
"status": "partial",
"theorems": [
"Idm.C95_search_partial",
"Idm.C95_bind_partial",
"Idm.C95_loads",
"Idm.C95_spelling_fails",
"Idm.C95_search_first_partial",
"Idm.C95_bind"
],
"note": "Conditions on names, filter and indexes as in C39; grammar as in C90. C95_bind says for every record which password counts; that it is the first of the file is false for records with two spellings of userPassword."
},
{
"property": "C96",
"status": "partial",
"theorems": [
"Idm.C96_collected_partial",
"Idm.C96_never_down",
"Idm.C96_max_fails",
"Idm.C96_add_blocks"
],
"note": "The full statement is false of the code: connections_max is always 0 (C96_max_fails) and no collection ends after an add request was counted (C96_add_blocks). Proved: the other five numbers are those of one moment, for fewer than 2^53 events (float64), and counters never go down."
},
{
"property": "C97",
"status": "proved",
"theorems": [
"Idm.C97_fresh",
"Idm.C97_fresh_answers",
"Idm.C97_add",
"Idm.C97_delete",
"Idm.C97_modify",
"Idm.C97_rename",
"Idm.C97_no_handler",
"Idm.C97_bind",
"Idm.C97_search",
"Idm.C97_register_elsewhere",
"Idm.C97_register_here",
"Idm.C97_one_per_suffix",
"Idm.C97_password",
"Idm.C97_addFunc",
"Idm.C97_bindFunc",
"Idm.C97_deleteFunc",
"Idm.C97_modifyFunc",
"Idm.C97_modifyDNFunc",
"Idm.C97_pwExopFunc",
"Idm.C97_searchFunc"
],
"note": "Any handlers, any order of the Go maps. Suffixes are compared as texts (C35); without statistics for add (C52). C97_search is for servers that do not enforce LDAP semantics; what is selected otherwise are C29 to C32."
},
{
"property": "C98",
"status": "partial",
"theorems": [
"Idm.C98_load_touches",
"Idm.C98_load_refused",
"Idm.C98_load_no_input",
"Idm.C98_load_partial",
"Idm.C98_export",
"Idm.C98_export_load_partial",
"Idm.C98_newusers_input",
"Idm.C98_newusers_exit_partial",
"Idm.C98_in_use_fails",
"Idm.C98_bare_fails",
"Idm.C98_newusers_prefix_fails",
"Idm.C98_load_locked",
"Idm.C98_exporting_fails",
"Idm.C98_newusers_broken",
"Idm.C98_newusers_broken_fails"
],
"note": "The full statement is false of the code in five respects (the _fails theorems). C98_load_partial and C98_export_load_partial are for histories of requests with names in the domain of C03 (HistOk); bolt.Open is modelled from its documentation."
},
{
"property": "C99",
"status": "partial",
"theorems": [
"Idm.C99_serves_partial",
"Idm.C99_search_partial",
"Idm.C99_bind_partial",
"Idm.C99_starts",
"Idm.C99_one_reading"
],
"note": "From the command line and the files on disk to the answers, for files that become LDIF through the template engine (a parameter here; C105 for the language). Of a file with a line of 64 KiB or more, what comes before it is served (C64); a read that breaks off counts as far as it got; conditions on names, filters and records as in C95; until the first reload (C101 for the whole life). C99_starts: without a config file."
}
]
}