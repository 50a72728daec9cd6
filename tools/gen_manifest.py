#!/usr/bin/env python3
"""Writes MANIFEST.json. One entry per property: status, theorems (without the Rodb. prefix), note."""
import json, os
C = {}
def claim(id, status, theorems, note=""):
    C[id] = {"property": id, "status": status, "theorems": ["Rodb." + t for t in theorems], "note": note}

claim("C01", "proved", ["C01_stream_is_flat_array"])
claim("C02", "proved", ["C02_flush_then_reopen"])
claim("C03", "proved", ["C03_tree_node_round_trip", "C03_position_round_trip", "C03_metadata_round_trip"])
claim("C04", "proved", ["C04_wildcard_exact"])
claim("C05", "proved", ["C05_wildcard_sorted"])
claim("C06", "partial", ["C06_empty_query_partial", "C06_false"],
      "False of the code: an empty search text returns nothing although every value contains it. Proved: it always returns nothing, which is right iff there are no records.")
claim("C07", "proved", ["C07_wildcard_ignore_case"])
claim("C08", "proved", ["C08_reload_same_answers"])
claim("C09", "partial", ["C09_crash_never_silently_wrong_partial", "C09_false"],
      "False of the code: the completed flag is written before the last flush. Proved for every crash point: refused, or answered rightly, or an explicit error, never silently wrong.")
claim("C10", "partial", ["C10_accepted_header_partial", "C10_accepts_iff_partial", "C10_any_file_partial", "C10_false"],
      "False of the code: property names and same-size same-second changes are not detected. Proved: exactly which files are accepted.")
claim("C11", "partial", ["C11_open_arbitrary_file_partial", "C11_panics_iff_partial", "C11_false"],
      "False of the code: negative or huge root counts panic. Proved: no panic otherwise; which files panic exactly (C11_panics_iff_partial).")
claim("C12", "proved", ["C12_wildcard_conjunction"])
claim("C13", "proved", ["C13_not_text_fails"])
claim("C14", "proved", ["C14_map_exact"])
claim("C15", "proved", ["C15_map_equals_scan"])
claim("C16", "partial", ["C16_map_build_no_crash_partial", "C16_only_scalars_indexed", "C16_first_decides_partial", "C16_false"],
      "False of the code: an array value makes the build panic. Proved without arrays; exactly which inputs panic is C16_first_decides_partial.")
claim("C17", "proved", ["C17_scan_exact", "C17_scan_sound"])
claim("C18", "partial", ["C18_closed_iff_drained_partial", "C18_false"],
      "False of the code: an iterator that is not drained keeps its file open. Proved: the file is closed exactly when the iterator reported its end.")
claim("C19", "proved", ["C19_scan_same_type", "C19_map_same_type", "C19_integer_never_matches_json"])
claim("C20", "proved", ["C20_join_is_sorted_intersection", "C20_join_order_irrelevant"])
claim("C21", "proved", ["C21_join_end_is_stable"])
claim("C22", "partial", ["C22_join_reports_errors_partial", "joinIters_complete", "C63_failure_false"],
      "The SQLite index never checks rows.Err, so its errors can be lost before they reach the join (C63_failure_false).")
claim("C23", "proved", ["C23_compare_decides", "C23_compare_total_order", "C23_different_types_fail"])
claim("C24", "proved", ["C24_sorted"])
claim("C25", "partial", ["C25_missing_values_partial", "C25_false"],
      "False of the code: the errors met while comparing are dropped by the sort. Proved: a criterion with a missing value on either side is skipped and the result is a permutation; with all values present see C24.")
claim("C26", "partial", ["C26_descending_reverse_partial", "C26_false"],
      "False of the code with NaN keys. Proved without NaN.")
claim("C30", "proved", ["C30_integer_parser", "C30_integer_round_trip"])
claim("C31", "proved", ["C31_remove_characters", "C31_remove_ascii"])
claim("C32", "proved", ["C32_boolean_parser"])
claim("C33", "proved", ["C33_split_pieces", "C33_split_elements", "C33_empty_delimiter"],
      "How the library cuts a text into characters (strings.Split with an empty separator) is a hypothesis.")
claim("C34", "partial", ["C34_parsing_terminates_partial", "C34_exactly_partial", "C34_depth_irrelevant", "C34_false"],
      "False of the code: split parsers naming each other in a cycle pass the validation. Proved when they can be ordered; C34_exactly_partial says exactly which parsers end, and that the others end for no text.")
claim("C35", "partial", ["C35_stateless_concurrent_partial", "C35_serial_conversions", "C35_false"],
      "False of the code for decoders with a state. Proved for all schedules with stateless decoders, and for non-overlapping conversions with any decoder.")
claim("C27", "proved", ["C27_path_keys", "C27_lookup", "C27_json_lookup", "C27_lookups_agree"])
claim("C28", "partial", ["C28_panics_iff_negative_partial", "C28_false"],
      "False of the code: a negative array index panics. Proved: that is the only way to panic.")
claim("C29", "proved", ["C29_xml_get_agrees"])
claim("C36", "proved", ["C36_position_is_bytes_consumed", "C36_item_independent_of_buffering"])
claim("C37", "proved", ["C37_csv_fetch_returns_scanned", "C37_csv_scan_is_rows", "C37_csv_scan_independent_of_buffering", "C37_csv_is_record_table"])
claim("C38", "proved", ["C38_concurrent_fetches", "C38_lock_is_needed", "C38_concurrent_json_fetches", "C38_json_lock_is_needed"],
      "For CSV and JSON inputs. For XML inputs see C99: what a fetch gives depends on the fetches before, and they are done one after the other because of the lock.")
claim("C39", "partial", ["C39_record_columns", "C39_width_never_fails_partial", "C39_after_header", "C39_first_row_partial", "C39_false"],
      "False of the code with ignoreFirstRow: a first row of another width, or an empty file, makes the scan fail. Proved without ignoreFirstRow and for a first row of the right width; C39_first_row_partial says exactly which files can be scanned.")
claim("C40", "partial", ["C40_json_scan_all_documents", "C40_json_malformed_reported", "C40_json_nothing_lost_partial", "C40_false"],
      "False of the code: a stray closing bracket or brace ends the scan without an error. Proved for every other content.")
claim("C41", "proved", ["C41_autodetect", "C41_autodetected_lookup"])
claim("C64", "proved", ["C64_csv_get_agrees", "C64_json_get_agrees"])
claim("C65", "proved", ["C65_float_parser"])

claim("C66", "proved", ["C66_xml_primitive_type"])
claim("C67", "proved", ["C67_accepted_parsers", "C67_references_resolve"])

claim("C42", "proved", ["C42_window", "C42_window_plain", "C45_one_for_each", "C42_refuses_bad_paging"],
      "For limits below 2^63; larger ones are C46.")
claim("C43", "proved", ["C43_pages"])
claim("C44", "proved", ["C44_exactly_matching", "C45_one_for_each", "C44_noop_serves", "C44_map_serves", "C44_wildcard_serves", "C44_noop_everything", "C44_refuses_unreadable"],
      "C44_exactly_matching is for parameters on different (index, property) pairs; with any parameters it is C45_one_for_each.")
claim("C45", "partial", ["C45_different_indexes_partial", "C45_one_for_each", "C45_object_one_for_each", "C45_false", "C45_order_dependent"],
      "False of the code: on the same index the parameter visited last replaces the other. Proved for different indexes; for all requests it is proved what is answered instead: one of the given conditions counts for each property and index (C45_one_for_each).")
claim("C46", "partial", ["C46_default_limit_partial", "C46_every_limit_partial", "C46_false"],
      "False of the code: a limit of 2^63 or more is accepted and then no record is returned. Proved below 2^63; what is answered for every limit is C46_every_limit_partial.")
claim("C47", "proved", ["C47_first_match", "C45_object_one_for_each"],
      "C47_first_match is for parameters on different (index, property) pairs; with any parameters it is C45_object_one_for_each.")
claim("C48", "partial", ["C48_relationships_partial", "C48_related_sorted", "C48_missing_parent_property", "C48_list_with_relationships", "C48_object_with_relationships", "C48_false"],
      "False of the code for limits of 2^63 or more (panic). Proved below, for relationships not matched by a property that a sibling overwrites.")
claim("C49", "partial", ["C49_same_answer_partial", "C49_false"],
      "False of the code: a relationship can be matched by a property that a sibling relationship overwrites. Proved for all other configurations.")

claim("C50", "partial", ["C50_json_body_partial", "C50_body_exactly_partial", "C50_false"],
      "False of the code: data with NaN or an infinity gives 200 with an empty body. Proved for all other data.")
claim("C51", "partial", ["C51_statuses_partial", "C51_groups", "C51_false"],
      "False of the code: a panic while answering closes the connection without a status. Proved for all requests that do not panic, on routes with a group for each parameter.")
claim("C52", "proved", ["C52_first_route", "C52_configured_order"])
claim("C53", "partial", ["C53_placeholders_partial", "C53_reported_partial", "C53_false"],
      "False of the code: the parentheses in the patterns of booleans and floats shift the texts of later placeholders. Proved when only the last placeholder has such a pattern, and for plain texts around them; C53_reported_partial says what every placeholder receives, with any parsers.")
claim("C54", "partial", ["C54_literal_partial", "C54_exactly_partial", "C54_false"],
      "False of the code: route paths are used as regular expressions, '.' matches any character. Proved for paths without special characters; C54_exactly_partial says that exactly these match literally, among all accepted paths without placeholders.")
claim("C55", "partial", ["C55_drained_partial", "C55_false"],
      "False of the code: main goes on when the servers stop listening, not when they are drained. Proved: all servers but the last one told to stop are drained.")
claim("C56", "proved", ["C56_address"])
claim("C68", "proved", ["C68_list_request"], "For route paths of plain texts and placeholders as in C53, finite numbers and limits below 2^63.")
claim("C69", "proved", ["C69_object_request"], "For route paths of plain texts and placeholders as in C53 and finite numbers.")

claim("C70", "proved", ["C70_created", "C70_route_parameters", "C70_array_refused", "C70_object_refused"])
claim("C71", "partial", ["C71_boolean", "C71_integer_partial", "C71_integer_read", "C71_float_partial", "C71_float_read", "C71_false", "C71_float_false", "C71_separator_false"],
      "False of the code: an integer with a plus sign and a float with an exponent are read but not routed, and texts of ignored characters only, or with one character of a longer decimal separator, are routed but not read. Proved for booleans, for integers without a plus sign and decimal numbers with a separator of one character, and back for texts with digits.")

claim("C57", "proved", ["C57_different_names", "C57_refused", "C57_components", "C57_loaded"])
claim("C58", "partial", ["C58_references", "C58_starts_partial", "C58_opens", "C58_on_files_partial", "C58_graphql_false", "C58_route_false"],
      "False of the code: GraphQL outputs and routes with unknown placeholders are accepted and then make the start fail. All references are proved to resolve; the start is proved to succeed for the other configurations when files, indexes and addresses are available.")
claim("C59", "partial", ["C59_collations_partial", "C59_false"],
      "False of the code: rtrim is refused, the allowed value is misspelled. Proved for binary and nocase.")
claim("C72", "proved", ["C72_order", "C72_inside"], "C72_order: the maps of components; C72_inside: the maps of parameters and relationships inside of the outputs, at any depth.")
claim("C73", "partial", ["C73_paging_partial", "C73_exactly_partial", "C73_false"],
      "False of the code: the limit and the offset can have one name. Proved for the filters and the default limit; C73_exactly_partial says exactly when they have one name.")
claim("C74", "partial", ["C74_no_panic_partial", "C74_exactly_partial", "C74_false"],
      "False of the code: a path that cannot be looked at for another reason than being absent makes loading panic. Proved otherwise; C74_exactly_partial says exactly which of the configurations that are right in everything else panic.")
claim("C75", "proved", ["C75_no_repetition"])

claim("C76", "proved", ["C76_accepted"], "Well-formed as the code understands it: the third collation is misspelt (C59).")
claim("C77", "proved", ["C77_defaults"])
claim("C78", "proved", ["C78_running"])
claim("C79", "partial", ["C79_list_request_partial", "C79_object_request_partial", "C79_list_related_partial", "C79_object_related_partial"], "Outputs with relationships nested to any depth that fit the data (Fits; other relationships are C48_false and C49_false); placeholders whose parsers give plain patterns; indexes of any kind that find what they are expected to (IndexesFind, proved for the indexes on disk by C80). Opening the file is a parameter of the model (its records are given by RecordsOf; C83, C86, C87 and C89 derive them from the bytes of the files).")
claim("C80", "partial", ["C80_indexes_find_partial"], "SQLite must give the rows in the order of their insertion and reading them must not fail (the code neither orders the rows nor checks the error, see C63). What FTS5 matches is a parameter.")
claim("C81", "partial", ["C81_positions_partial", "C81_serves_partial", "C81_after_starts_partial", "C81_rejects", "C81_malformed_false", "C81_type_false"],
      "False of the code: an expression that FTS5 refuses gives an empty answer instead of an error, and an index whose type was changed in the configuration is accepted and finds nothing. Proved for an index that was built as configured, when reading the rows does not fail; what FTS5 matches is a parameter of the model.")

claim("C60", "partial", ["C60_partial", "C60_fts5_partial", "C60_identifier_partial", "C60_false"],
      "False of the code for names with a NUL character, which SQLite cuts. Proved for every statement of the index and all other names, whatever they contain.")
claim("C61", "partial", ["C61_partial", "C61_indexes_partial", "C61_false", "C61_case_false"],
      "False of the code: the name of a SQL index does not separate index and property names, and names that differ in case share their tables. Proved: tables and columns are the same only up to the case of ASCII letters.")
claim("C62", "proved", ["C62_history", "C62_own_name", "C62_same_input", "C62_builds", "C62_builds_fts5"], "SQLite and FTS5 indexes in one database. Death between statements; a statement is atomic in the model of SQLite. Names without NUL (see C60).")
claim("C63", "partial", ["C63_positions_partial", "C63_serves_partial", "C63_after_starts_partial", "C63_rejects", "C63_equal", "C63_nocase", "C63_false", "C63_failure_false", "C63_null_false"],
      "False of the code: added properties are accepted and find nothing, an error while reading rows ends the list, null finds nothing. Proved for an index that was built with its properties, when reading the rows does not fail.")

claim("C82", "proved", ["C82_csv_table", "C82_header", "C82_verbatim", "C82_misquoted", "C82_unclosed", "C82_bad_delimiter"],
      "encoding/csv is modelled from its source and is part of the trusted base. A delimiter that is a quote, accepted by validation, makes every read fail (C82_bad_delimiter).")

claim("C83", "proved", ["C83_list_from_csv", "C83_object_from_csv"],
      "For outputs without relationships, on inputs whose indexes are map indexes or full scans, with parameters on columns or paths into them; the JSON encoder and the regular expressions of the router by their contracts.")

claim("C84", "proved", ["C84_body_is_json_text", "C84_encoder_contract", "C84_same_data_same_bytes", "C84_every_response", "C84_error_messages", "C84_false"],
      "The shortest decimal text of a float is a parameter, assumed to be a JSON number. C84_false shows that different texts that are not valid UTF-8 can be written in the same way.")
claim("C85", "proved", ["C85_json_file", "C85_only_json", "C85_parser_reads", "C85_parser_strict", "C85_written_is_read"],
      "strconv.ParseFloat is a parameter. A closing bracket too many after the last object ends the scan without an error (C40).")
claim("C86", "proved", ["C86_list_from_json", "C86_object_from_json"],
      "For outputs without relationships, on inputs whose indexes are map indexes or full scans, with paths that can be followed in every object and keys that are distinct; the regular expressions of the router by their contract; the texts of floats as parameters.")
claim("C87", "proved", ["C87_list_from_files", "C87_object_from_files"],
      "For CSV, JSON and XML inputs (XML files as in C100) whose indexes are map indexes or full scans, and relationships that fit the data (FitsObjects; others are C48_false and C49_false). Sorted relationships are in order if the values at each criterion are of one type; otherwise only the objects shown are specified (C24).")
claim("C88", "partial", ["C88_unchanged_partial", "C88_written_partial", "C88_notice_ends", "C88_unwritten", "C88_tolerant", "C88_files_exist", "C88_false"],
      "False of the code when the path is made to lead to another file (rename, remove and create): no Write event is sent, the program goes on, scans use the new file and fetches the old one (C88_false). Proved for files that are changed in place, when the system drops no notices. What the operating system and fsnotify notify is an assumption, stated in the step relation.")
claim("C89", "partial", ["C89_list_stored_partial", "C89_object_stored_partial"],
      "The order of the file and completeness need what SQLite does not promise: rows in the order of their insertion, and reads that do not fail (ReadsInOrder; the code neither orders the rows nor checks the error, see C63). What FTS5 matches is a parameter. Wildcard files are absent or complete (a file that was cut off is C09). Values that cannot be asked of an index (empty wildcard texts, a full-text filter that is not called match) are excluded by Askable. XML files are those of C100.")
claim("C90", "proved", ["C90_list_refused", "C90_object_refused", "C90_others_are_read"],
      "That strconv.ParseFloat and the decoders of charsets return a value or an error is an assumption (ParsersReturn). Routes as in C53.")
claim("C91", "partial", ["C91_variables_replaced_partial", "C91_no_dollar", "C91_false"],
      "os.ExpandEnv is modelled from Go's os/env.go, which is part of the trusted base. False for other uses of `$`: `$5` disappears, and without variables no text of the file gives a `$` followed by a letter, a digit or `_` (C91_false). Proved for texts made of references and text without `$`.")

claim("C92", "proved", ["C92_document", "C92_written_is_read", "C92_only_documented_settings"],
      "The document is the tree that yaml.v2's parser makes of the text. The decoding into structures (decode.go) is modelled from the library, which is part of the trusted base. Four fields of the program that have no setting can be given under their names in lower case (logger, delimiterregexp, columnindexbyname, compiledxpath); floats are accepted for whole numbers and cut off; any scalar is accepted for a text.")
claim("C93", "partial", ["C93_accepted", "C93_running", "C93_written", "C93_no_panic_partial", "C93_false"],
      "Acceptance is proved as an equivalence. Refusing without a panic is false: an empty element in one of the lists panics (C93_false), and so does an error of the operating system for the path of an input (C74_false). Proved without both. The YAML parser is a parameter.")

claim("C94", "proved", ["C94_exit_status"],
      "That Serve returns ErrServerClosed after Shutdown, and that Shutdown returns no error, are assumptions on net/http.")
claim("C95", "partial", ["C95_failure_ends_partial", "C95_exactly_partial", "C95_false"],
      "False of the code: the program waits for its servers one after the other and notices a failure only when the others before have stopped (C95_false). Proved once all the servers have stopped; exactly when the program ends by itself is C95_exactly_partial.")
claim("C96", "partial", ["C96_signal_ends_partial", "C96_exactly_partial", "C96_false"],
      "False of the code with several services of which one has a failed server: Close gives up at it, the others are never shut down, and if the program waits for one of them it can only be killed (C96_false). Proved if no server failed, or with one service; exactly when it ends by itself is C96_exactly_partial.")

claim("C97", "proved", ["C97_pages_from_files"],
      "From the bytes of the files to the bodies of the answers, for the outputs, indexes and inputs (CSV, JSON, and XML as in C100) of C87 (map and default indexes, relationships to any depth).")

claim("C98", "proved", ["C98_xml_scan", "C98_xml_ends", "C98_xml_malformed"],
      "From the tokens on. The lexer and the evaluation of XPath are parameters; the expression is one that selects elements anywhere in the document by their name and attributes, as //item does.")
claim("C99", "partial", ["C99_xml_fetch_partial", "C99_false", "C99_path_false"],
      "False of the code: fetches share one stream parser, whose state depends on the fetches before. Proved for expressions like //item and documents without a record after the end of an element with a record in it, for any history of fetches. For every other document a record cannot be fetched, and no fetch works any more afterwards (C99_false). For an expression like /root/item a record cannot be fetched by its position, or only once (C99_path_false).")

claim("C100", "partial", ["C100_list_from_xml_partial", "C100_object_from_xml_partial", "C100_false"],
      "Partial because of C99: for documents in which a record comes after the end of an element with a record in it, fetches by position fail (C100_false), so lists that go through an index are not answered. The lexer and XPath are parameters; the record expression is one like //item; the fetches before are of records of the file; the properties asked have a value in every record.")

claim("C101", "proved", ["C101_xml_written", "C101_xml_writable"],
      "From the bytes of the file. The lexer of encoding/xml is modelled, from its source as remembered, which is part of the trusted base; names are of ASCII letters, digits, `_`, `-` and `.`, without namespaces; the evaluation of the record expression is a parameter as in C98.")

claim("C102", "partial", ["C102_xml_cut_partial", "C102_false"],
      "False if the file is cut before its root element: it is read as a file without records (C102_false). Proved for every cut inside of the root element, for any record expression and with the modelled lexer (C101).")

claim("C103", "partial", ["C103_xml_path_partial", "C103_xml_seen", "C103_false"],
      "C103_xml_seen says for any expression what a scan gives: the elements at whose start the expression selects something in the document so far, without the records before. For expressions that look for names and attributes of an element and of those it is in (/root/item, //item, //list[@id]/item) these are the selected ones. False otherwise: //i[j] gives the j, which it does not select, instead of the i (C103_false).")

claim("C104", "proved", ["C104_json_cut"],
      "encoding/json is modelled from its source (Model/JsonText.lean) and is part of the trusted base. A file cut between two objects is itself the file of its complete objects, and is read as such.")
claim("C105", "proved", ["C105_csv_cut", "C105_csv_complete_rows", "C105_cut_not_noticed"],
      "C105_csv_cut holds for any bytes. The last row of the cut file may be read without an error and with a value that the whole file does not have (C105_cut_not_noticed): the property does not claim that a cut is noticed. Model of encoding/csv as in C82.")

claim("C106", "partial", ["C106_url_written", "C106_writable", "C106_refused_partial", "C106_ignored", "C106_false"],
      "Reading what is written is proved in full. Refusing is false: a parameter of the query that cannot be read is ignored (C106_ignored), so that GET /all?id=%zz is answered with everything (C106_false); it is proved for the path: status 400 exactly for control characters and bad escapes. net/url is modelled from its source, for targets that begin with a slash, for Go up to 1.16 and later, and is part of the trusted base.")

claim("C107", "partial", ["C107_search_ends_partial", "C107_positions", "C107_same_answer", "C107_same_positions", "C107_hangs", "C107_false"],
      "False in general: links between siblings that form a loop make a search run for ever (C107_hangs), a negative length panics, a loop of positions is iterated for ever (C107_false, with files that the program accepts at its start). Proved for every file where no such loop can be reached and the lengths of texts are within the file; every other damage ends in an answer or an error.")

claim("C108", "partial", ["C108_list_partial", "C108_object_partial"],
      "Composition of C93 (configuration file), C78 (what runs), C89 (files and indexes to response) and C106 (URL). Of several parameters on one property of one index the theorems say that one counts, and not which one (C45_order_dependent). Partial for what C79 and C89 exclude, where the property is false of the code: special characters in route paths, placeholders whose parser accepts what the route does not, searches for an empty text in wildcard indexes, the default index redefined.")

claim("C109", "partial", ["C109_answered_partial", "C51_false"],
      "Composition of C51, C53, C89, C90 and C106: which requests get which status. Partial because the property is false of the code in general (C51_false: sorting or comparing arrays panics); supposed are routes to lists and objects whose parameters can always be asked of their indexes and whose relationships fit the data. Request targets that do not begin with a slash or whose path is not UTF-8 are not modelled.")

claim("C110", "partial", ["C110_concurrent_partial", "C110_no_deadlock_partial", "C110_requests_can_be_handled", "C110_xml_partial", "C110_xml_no_deadlock_partial", "C110_xml_requests_can_be_handled", "C99_false", "C35_false"],
      "For the whole program, every configuration with CSV and JSON inputs, every interleaving of the steps of Get (lock, seek, reset, refills, unlock); with XML inputs (C110_xml_*) when the documents and record expressions are ones for which fetching is right (C99), Get of an XML input being one step that leaves its parser to the next call. Partial because it is false of the code for other XML documents (C99_false), and for string parsers with a character set, which share a decoder (C35_false). Searches in indexes and databases are one step, without a state.")

claim('C111', 'proved', ['C111_path', 'C111_one_alternative', 'C111_alternatives'],
      "Complement of C54, which is about plain paths: what special characters in a path do. Go's regexp is modelled (parser of patterns, what an expression matches) and part of the trusted base; classes named by letters, counted repetitions, flags and a brace that begins no placeholder are not part of the modelled syntax. C111_alternatives: /list|/item also serves everything that begins with /list.")

claim('C112', 'partial', ['C112_alone', 'C112_again', 'C112_list_partial', 'C112_object_partial', 'C112_false'],
      "Earlier starts may have been killed anywhere, except between the write that marks the file of a wildcard index as complete and the last write of that file: there the property is false of the code (C112_false). Earlier starts may have been on other data files. Also missing: a data file that changes and keeps its size and the second of its modification time (C114), and what is missing in C108. C112_alone shows that the program of C108, whose indexes do not see each other's changes, is the same as this one if no two indexes share a file or a database.")

claim('C113', 'partial', ['C113_file', 'C113_memory_partial', 'C113_memory_unread', 'C113_memory_false', 'C113_lost_false', 'C113_connections'],
      'Proved for databases in files (C113_file). False of the code with the DSN `:memory:`, which the documentation uses in its example: every connection of the pool then has an empty database of its own, so while a search is not read to its end (as when a list reaches its limit) every other search fails (C113_memory_unread, C113_memory_false), and after three searches at the same time the index can be lost for ever (C113_lost_false). What is left then is C113_memory_partial: nothing wrong is answered, and searches made one after the other answer as they should.')

claim('C114', 'partial', ['C114_untouched', 'C114_changed_partial', 'C114_false'],
      'Proved: after a start that succeeds nothing later changes the stored indexes, and a start with a data file of another size or modified in another second fails. False for a change that keeps the size and the second of the modification time (C114_false): the program then answers from the old index. Any of the starts may have been killed anywhere. Map and noop indexes are built at each start and keep nothing.')

claim('C115', 'proved', ['C115_list', 'C115_object', 'C115_response'],
      'A search may give the positions up to any point and then an error; an input may fail for any position. That the noop, map, wildcard and SQLite indexes fail in this way, and not by a silently shorter result, is C09, C17 and C22; the SQLite index never checks rows.Err, so a database that fails in the middle of a search is outside (C63_failure_false).')

claim('C116', 'partial', ['C116_killed_anywhere_partial'],
      'Without the condition of C112 that no start is killed after the file of a wildcard index says that it is complete. Earlier starts may have been on other data files. Missing: a data file that changes and keeps its size and the second of its modification time (C114), and what is missing in C108. A process is killed, not the machine: what was written before is on the disk, and SQLite rolls back.')

claim('C117', 'proved', ['C117_sqlite', 'C117_fts5', 'C117_start', 'C117_never'],
      "The arguments behind the name of a tokenizer are not checked, and SQLite's limits on numbers of columns and lengths are not modelled. A NUL ends a name in a statement, which the theorems leave out.")

claim('C118', 'partial', ['C118_command_line', 'C118_up', 'C118_unreadable', 'C118_level', 'C118_config', 'C118_exit', 'C118_starts_partial', 'C118_quiet_partial', 'C118_false'],
      'Command line, exit statuses and the servers of a running program: proved. That a start that fails has served nothing is false with several addresses (C118_false: a later address cannot be bound, and the first service has answered already) and proved for one address (C118_quiet_partial). That a right configuration starts has the conditions of C58.')

claim('C119', 'partial', ['C119_list_partial', 'C119_object_partial', 'C119_sqlite', 'C119_fts5', 'C119_indexes_find', 'C119_running_list_partial', 'C119_running_object_partial', 'C119_false'],
      'False of the code for conditions on two indexes: the join of the lists of positions assumes that they increase, so records that satisfy both conditions are left out (C119_false, with SQLite giving rows backwards). Proved in general: everything shown is right and shown once; with all the conditions on one index nothing is left out. Reading the rows must not fail (C63_failure_false).')

claim('C120', 'partial', ['C120_exactly_partial', 'C120_closed_partial', 'C120_kinds_partial', 'C120_false', 'C120_failing_false'],
      'False of the code: the file of a wildcard index is never closed (C120_false), and a closing that fails leaves everything after it in the same map open (C120_failing_false). Proved: what is still open exactly (C120_exactly_partial); everything else is closed once, in the right order. The operating system closes what is left when the process ends.')

claim('C121', 'proved', ['C121_progress', 'C121_silent'],
      "Supposed: the file keeps its size while it is read, so that positions are within it; the clock does not go back (Go's monotonic clock); positions increase (C37, C40, C98). Rounding is any monotone function that keeps 0, 1 and 100.")

claim('C122', 'proved', ['C122_syntax', 'C122_selects', 'C122_selects_in_order', 'C122_string', 'C122_boolean', 'C122_count', 'C122_nodes', 'C122_path_needs_string', 'C122_looks_along', 'C122_looks_for', 'C122_records', 'C122_record_values', 'C122_xml_data'],
      "antchfx/xpath and xmlquery are not part of the repository; their evaluation is modelled from memory for this syntax, and other expressions are left to a parameter. C122_string supposes that a path that begins with // has one step, because the order is the document's only then. C122_path_needs_string: with the example of docs/schema/inputs/xml.yaml (/Id with an integer parser) no record can be read.")

claim('C123', 'proved', ['C123_answers', 'C123_accepted'],
      'Split parsers that lead back to themselves are left out (parsing with them never ends, C34). What building or loading an index gives is a parameter of both programs, as are the addresses: that indexes do not disturb each other in their files and databases is C62 and C112.')

claim('C124', 'proved', ['C124_answers', 'C124_csv_answers', 'C124_accepted', 'C124_csv_ordered', 'C124_csv_scalars', 'C124_json_ordered'],
      'The other direction is not claimed: a program with full scans may start where the map index cannot be built, because a record cannot be read or has an array (C16). Filters of requests are never arrays or objects: parameters need primitive parsers. Relationships for values that are arrays or objects are left out.')

claim('C125', 'proved', ['C125_parsers'],
      'Split parsers that lead back to themselves are left out (C34). For separators of floats with several characters see C65 and for empty delimiters C33. What a charset, a regular expression, strconv.ParseFloat and json.Unmarshal give are parameters.')

claim('C126', 'proved', ['C126_accepted', 'C126_both_accepted', 'C126_loaded', 'C126_answers'],
      "Acceptance without the defaults, given acceptance with them, needs two facts about strings.ToUpper for texts that are not ASCII: it leaves texts in upper case as they are, and only the empty text becomes empty. The sorting function must return a permutation in order, as Go's does.")

claim('C127', 'proved', ['C127_same_records', 'C127_csv', 'C127_json', 'C127_xml', 'C127_program', 'C127_files'],
      "The indexes are map indexes and full scans. The sorting function must treat alike lists whose elements compare alike, which is shown for the insertion sort of Go's library (insertionSort_onlyCompares). For XML, what was fetched before are positions of records of the file.")

claim('C128', 'proved', ['C128_same_parameters', 'C128_rewritten'],
      'The URLs are those of C106 (a path that begins with a slash, and a query string of name=value pairs).')

claim('C129', 'proved', ['C129_other_methods', 'C129_only_url'],
      'The body of the response is not sent by net/http if the method is HEAD. For other methods than GET the URL is one of C106 (others are refused with status 400 before the service sees them).')

claim('C130', 'proved', ['C130_distinct_names'],
      'The sort of the library is a permutation (part of the contract of sort.Slice).')

claim('C131', 'partial', ['C131_same_response_partial', 'C131_same_start', 'C131_same_list_partial', 'C131_same_object_partial', 'C131_same_list_error_partial', 'C131_same_object_error_partial', 'C131_list_refused_always', 'C131_object_refused_always', 'C131_false', 'C131_errors_false'],
      'False of the code if two parameters that are both given are on the same property of the same index: the last one visited counts (C131_false, C45), and if a relationship is matched by a property that a sibling overwrites (C49_false). Proved for all other requests that have an answer or one error (a page that makes no sense, a parameter that cannot be read), for outputs and for the whole program started on files (C131_same_response_partial): it starts for both orders, whatever the orders in which its parts are created, with the same services, routes and responses. Missing: requests with several errors, where the order can decide which one is told (C131_errors_false), but not whether there is one (C131_list_refused_always).')

if __name__ == "__main__":
    out = os.path.join(os.path.dirname(__file__), "..", "MANIFEST.json")
    json.dump({"claims": [C[k] for k in sorted(C)]}, open(out, "w"), indent=1, ensure_ascii=False)
