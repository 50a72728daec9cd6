{
 "claims": [
  {
   "property": "C01",
   "status": "proved",
   "theorems": [
    "Rodb.C01_stream_is_flat_array"
   ],
   "note": ""
  },
  {
   "property": "C02",
   "status": "proved",
   "theorems": [
    "Rodb.C02_flush_then_reopen"
   ],
   "note": ""
  },
  {
   "property": "C03",
   "status": "proved",
   "theorems": [
    "Rodb.C03_tree_node_round_trip",
    "Rodb.C03_position_round_trip",
    "Rodb.C03_metadata_round_trip"
   ],
   "note": ""
  },
  {
   "property": "C04",
   "status": "proved",
   "theorems": [
    "Rodb.C04_wildcard_exact"
   ],
   "note": ""
  },
  {
   "property": "C05",
   "status": "proved",
   "theorems": [
    "Rodb.C05_wildcard_sorted"
   ],
   "note": ""
  },
  {
   "property": "C06",
   "status": "partial",
   "theorems": [
    "Rodb.C06_empty_query_partial",
    "Rodb.C06_false"
   ],
   "note": "False of the code: an empty search text returns nothing although every value contains it. Proved: it always returns nothing, which is right iff there are no records."
  },
  {
   "property": "C07",
   "status": "proved",
   "theorems": [
    "Rodb.C07_wildcard_ignore_case"
   ],
   "note": ""
  },
  {
   "property": "C08",
   "status": "proved",
   "theorems": [
    "Rodb.C08_reload_same_answers"
   ],
   "note": ""
  },
  {
   "property": "C09",
   "status": "partial",
   "theorems": [
    "Rodb.C09_crash_never_silently_wrong_partial",
    "Rodb.C09_false"
   ],
   "note": "False of the code: the completed flag is written before the last flush. Proved for every crash point: refused, or answered rightly, or an explicit error, never silently wrong."
  },
  {
   "property": "C10",
   "status": "partial",
   "theorems": [
    "Rodb.C10_accepted_header_partial",
    "Rodb.C10_accepts_iff_partial",
    "Rodb.C10_any_file_partial",
    "Rodb.C10_false"
   ],
   "note": "False of the code: property names and same-size same-second changes are not detected. Proved: exactly which files are accepted."
  },
  {
   "property": "C100",
   "status": "partial",
   "theorems": [
    "Rodb.C100_list_from_xml_partial",
    "Rodb.C100_object_from_xml_partial",
    "Rodb.C100_false"
   ],
   "note": "Partial because of C99: for documents in which a record comes after the end of an element with a record in it, fetches by position fail (C100_false), so lists that go through an index are not answered. The lexer and XPath are parameters; the record expression is one like //item; the fetches before are of records of the file; the properties asked have a value in every record."
  },
  {
   "property": "C101",
   "status": "proved",
   "theorems": [
    "Rodb.C101_xml_written",
    "Rodb.C101_xml_writable"
   ],
   "note": "From the bytes of the file. The lexer of encoding/xml is modelled, from its source as remembered, which is part of the trusted base; names are of ASCII letters, digits, `_`, `-` and `.`, without namespaces; the evaluation of the record expression is a parameter as in C98."
  },
  {
   "property": "C102",
   "status": "partial",
   "theorems": [
    "Rodb.C102_xml_cut_partial",
    "Rodb.C102_false"
   ],
   "note": "False if the file is cut before its root element: it is read as a file without records (C102_false). Proved for every cut inside of the root element, for any record expression and with the modelled lexer (C101)."
  },
  {
   "property": "C103",
   "status": "partial",
   "theorems": [
    "Rodb.C103_xml_path_partial",
    "Rodb.C103_xml_seen",
    "Rodb.C103_false"
   ],
   "note": "C103_xml_seen says for any expression what a scan gives: the elements at whose start the expression selects something in the document so far, without the records before. For expressions that look for names and attributes of an element and of those it is in (/root/item, //item, //list[@id]/item) these are the selected ones. False otherwise: //i[j] gives the j, which it does not select, instead of the i (C103_false)."
  },
  {
   "property": "C104",
   "status": "proved",
   "theorems": [
    "Rodb.C104_json_cut"
   ],
   "note": "encoding/json is modelled from its source (Model/JsonText.lean) and is part of the trusted base. A file cut between two objects is itself the file of its complete objects, and is read as such."
  },
  {
   "property": "C105",
   "status": "proved",
   "theorems": [
    "Rodb.C105_csv_cut",
    "Rodb.C105_csv_complete_rows",
    "Rodb.C105_cut_not_noticed"
   ],
   "note": "C105_csv_cut holds for any bytes. The last row of the cut file may be read without an error and with a value that the whole file does not have (C105_cut_not_noticed): the property does not claim that a cut is noticed. Model of encoding/csv as in C82."
  },
  {
   "property": "C106",
   "status": "partial",
   "theorems": [
    "Rodb.C106_url_written",
    "Rodb.C106_writable",
    "Rodb.C106_refused_partial",
    "Rodb.C106_ignored",
    "Rodb.C106_false"
   ],
   "note": "Reading what is written is proved in full. Refusing is false: a parameter of the query that cannot be read is ignored (C106_ignored), so that GET /all?id=%zz is answered with everything (C106_false); it is proved for the path: status 400 exactly for control characters and bad escapes. net/url is modelled from its source, for targets that begin with a slash, for Go up to 1.16 and later, and is part of the trusted base."
  },
  {
   "property": "C107",
   "status": "partial",
   "theorems": [
    "Rodb.C107_search_ends_partial",
    "Rodb.C107_positions",
    "Rodb.C107_same_answer",
    "Rodb.C107_same_positions",
    "Rodb.C107_hangs",
    "Rodb.C107_false"
   ],
   "note": "False in general: links between siblings that form a loop make a search run for ever (C107_hangs), a negative length panics, a loop of positions is iterated for ever (C107_false, with files that the program accepts at its start). Proved for every file where no such loop can be reached and the lengths of texts are within the file; every other damage ends in an answer or an error."
  },
  {
   "property": "C108",
   "status": "partial",
   "theorems": [
    "Rodb.C108_list_partial",
    "Rodb.C108_object_partial"
   ],
   "note": "Composition of C93 (configuration file), C78 (what runs), C89 (files and indexes to response) and C106 (URL). Of several parameters on one property of one index the theorems say that one counts, and not which one (C45_order_dependent). Partial for what C79 and C89 exclude, where the property is false of the code: special characters in route paths, placeholders whose parser accepts what the route does not, searches for an empty text in wildcard indexes, the default index redefined."
  },
  {
   "property": "C109",
   "status": "partial",
   "theorems": [
    "Rodb.C109_answered_partial",
    "Rodb.C51_false"
   ],
   "note": "Composition of C51, C53, C89, C90 and C106: which requests get which status. Partial because the property is false of the code in general (C51_false: sorting or comparing arrays panics); supposed are routes to lists and objects whose parameters can always be asked of their indexes and whose relationships fit the data. Request targets that do not begin with a slash or whose path is not UTF-8 are not modelled."
  },
  {
   "property": "C11",
   "status": "partial",
   "theorems": [
    "Rodb.C11_open_arbitrary_file_partial",
    "Rodb.C11_panics_iff_partial",
    "Rodb.C11_false"
   ],
   "note": "False of the code: negative or huge root counts panic. Proved: no panic otherwise; which files panic exactly (C11_panics_iff_partial)."
  },
  {
   "property": "C110",
   "status": "partial",
   "theorems": [
    "Rodb.C110_concurrent_partial",
    "Rodb.C110_no_deadlock_partial",
    "Rodb.C110_requests_can_be_handled",
    "Rodb.C110_xml_partial",
    "Rodb.C110_xml_no_deadlock_partial",
    "Rodb.C110_xml_requests_can_be_handled",
    "Rodb.C99_false",
    "Rodb.C35_false"
   ],
   "note": "For the whole program, every configuration with CSV and JSON inputs, every interleaving of the steps of Get (lock, seek, reset, refills, unlock); with XML inputs (C110_xml_*) when the documents and record expressions are ones for which fetching is right (C99), Get of an XML input being one step that leaves its parser to the next call. Partial because it is false of the code for other XML documents (C99_false), and for string parsers with a character set, which share a decoder (C35_false). Searches in indexes and databases are one step, without a state."
  },
  {
   "property": "C111",
   "status": "proved",
   "theorems": [
    "Rodb.C111_path",
    "Rodb.C111_one_alternative",
    "Rodb.C111_alternatives"
   ],
   "note": "Complement of C54, which is about plain paths: what special characters in a path do. Go's regexp is modelled (parser of patterns, what an expression matches) and part of the trusted base; classes named by letters, counted repetitions, flags and a brace that begins no placeholder are not part of the modelled syntax. C111_alternatives: /list|/item also serves everything that begins with /list."
  },
  {
   "property": "C112",
   "status": "partial",
   "theorems": [
    "Rodb.C112_alone",
    "Rodb.C112_again",
    "Rodb.C112_list_partial",
    "Rodb.C112_object_partial",
    "Rodb.C112_false"
   ],
   "note": "Earlier starts may have been killed anywhere, except between the write that marks the file of a wildcard index as complete and the last write of that file: there the property is false of the code (C112_false). Earlier starts may have been on other data files. Also missing: a data file that changes and keeps its size and the second of its modification time (C114), and what is missing in C108. C112_alone shows that the program of C108, whose indexes do not see each other's changes, is the same as this one if no two indexes share a file or a database."
  },
  {
   "property": "C113",
   "status": "partial",
   "theorems": [
    "Rodb.C113_file",
    "Rodb.C113_memory_partial",
    "Rodb.C113_memory_unread",
    "Rodb.C113_memory_false",
    "Rodb.C113_lost_false",
    "Rodb.C113_connections"
   ],
   "note": "Proved for databases in files (C113_file). False of the code with the DSN `:memory:`, which the documentation uses in its example: every connection of the pool then has an empty database of its own, so while a search is not read to its end (as when a list reaches its limit) every other search fails (C113_memory_unread, C113_memory_false), and after three searches at the same time the index can be lost for ever (C113_lost_false). What is left then is C113_memory_partial: nothing wrong is answered, and searches made one after the other answer as they should."
  },
  {
   "property": "C114",
   "status": "partial",
   "theorems": [
    "Rodb.C114_untouched",
    "Rodb.C114_changed_partial",
    "Rodb.C114_false"
   ],
   "note": "Proved: after a start that succeeds nothing later changes the stored indexes, and a start with a data file of another size or modified in another second fails. False for a change that keeps the size and the second of the modification time (C114_false): the program then answers from the old index. Any of the starts may have been killed anywhere. Map and noop indexes are built at each start and keep nothing."
  },
  {
   "property": "C115",
   "status": "proved",
   "theorems": [
    "Rodb.C115_list",
    "Rodb.C115_object",
    "Rodb.C115_response"
   ],
   "note": "A search may give the positions up to any point and then an error; an input may fail for any position. That the noop, map, wildcard and SQLite indexes fail in this way, and not by a silently shorter result, is C09, C17 and C22; the SQLite index never checks rows.Err, so a database that fails in the middle of a search is outside (C63_failure_false)."
  },
  {
   "property": "C116",
   "status": "partial",
   "theorems": [
    "Rodb.C116_killed_anywhere_partial"
   ],
   "note": "Without the condition of C112 that no start is killed after the file of a wildcard index says that it is complete. Earlier starts may have been on other data files. Missing: a data file that changes and keeps its size and the second of its modification time (C114), and what is missing in C108. A process is killed, not the machine: what was written before is on the disk, and SQLite rolls back."
  },
  {
   "property": "C117",
   "status": "proved",
   "theorems": [
    "Rodb.C117_sqlite",
    "Rodb.C117_fts5",
    "Rodb.C117_start",
    "Rodb.C117_never"
   ],
   "note": "The arguments behind the name of a tokenizer are not checked, and SQLite's limits on numbers of columns and lengths are not modelled. A NUL ends a name in a statement, which the theorems leave out."
  },
  {
   "property": "C118",
   "status": "partial",
   "theorems": [
    "Rodb.C118_command_line",
    "Rodb.C118_up",
    "Rodb.C118_unreadable",
    "Rodb.C118_level",
    "Rodb.C118_config",
    "Rodb.C118_exit",
    "Rodb.C118_starts_partial",
    "Rodb.C118_quiet_partial",
    "Rodb.C118_false"
   ],
   "note": "Command line, exit statuses and the servers of a running program: proved. That a start that fails has served nothing is false with several addresses (C118_false: a later address cannot be bound, and the first service has answered already) and proved for one address (C118_quiet_partial). That a right configuration starts has the conditions of C58."
  },
  {
   "property": "C119",
   "status": "partial",
   "theorems": [
    "Rodb.C119_list_partial",
    "Rodb.C119_object_partial",
    "Rodb.C119_sqlite",
    "Rodb.C119_fts5",
    "Rodb.C119_indexes_find",
    "Rodb.C119_running_list_partial",
    "Rodb.C119_running_object_partial",
    "Rodb.C119_false"
   ],
   "note": "False of the code for conditions on two indexes: the join of the lists of positions assumes that they increase, so records that satisfy both conditions are left out (C119_false, with SQLite giving rows backwards). Proved in general: everything shown is right and shown once; with all the conditions on one index nothing is left out. Reading the rows must not fail (C63_failure_false)."
  },
  {
   "property": "C12",
   "status": "proved",
   "theorems": [
    "Rodb.C12_wildcard_conjunction"
   ],
   "note": ""
  },
  {
   "property": "C120",
   "status": "partial",
   "theorems": [
    "Rodb.C120_exactly_partial",
    "Rodb.C120_closed_partial",
    "Rodb.C120_kinds_partial",
    "Rodb.C120_false",
    "Rodb.C120_failing_false"
   ],
   "note": "False of the code: the file of a wildcard index is never closed (C120_false), and a closing that fails leaves everything after it in the same map open (C120_failing_false). Proved: what is still open exactly (C120_exactly_partial); everything else is closed once, in the right order. The operating system closes what is left when the process ends."
  },
  {
   "property": "C121",
   "status": "proved",
   "theorems": [
    "Rodb.C121_progress",
    "Rodb.C121_silent"
   ],
   "note": "Supposed: the file keeps its size while it is read, so that positions are within it; the clock does not go back (Go's monotonic clock); positions increase (C37, C40, C98). Rounding is any monotone function that keeps 0, 1 and 100."
  },
  {
   "property": "C122",
   "status": "proved",
   "theorems": [
    "Rodb.C122_syntax",
    "Rodb.C122_selects",
    "Rodb.C122_selects_in_order",
    "Rodb.C122_string",
    "Rodb.C122_boolean",
    "Rodb.C122_count",
    "Rodb.C122_nodes",
    "Rodb.C122_path_needs_string",
    "Rodb.C122_looks_along",
    "Rodb.C122_looks_for",
    "Rodb.C122_records",
    "Rodb.C122_record_values",
    "Rodb.C122_xml_data"
   ],
   "note": "antchfx/xpath and xmlquery are not part of the repository; their evaluation is modelled from memory for this syntax, and other expressions are left to a parameter. C122_string supposes that a path that begins with // has one step, because the order is the document's only then. C122_path_needs_string: with the example of docs/schema/inputs/xml.yaml (/Id with an integer parser) no record can be read."
  },
  {
   "property": "C123",
   "status": "proved",
   "theorems": [
    "Rodb.C123_answers",
    "Rodb.C123_accepted"
   ],
   "note": "Split parsers that lead back to themselves are left out (parsing with them never ends, C34). What building or loading an index gives is a parameter of both programs, as are the addresses: that indexes do not disturb each other in their files and databases is C62 and C112."
  },
  {
   "property": "C124",
   "status": "proved",
   "theorems": [
    "Rodb.C124_answers",
    "Rodb.C124_csv_answers",
    "Rodb.C124_accepted",
    "Rodb.C124_csv_ordered",
    "Rodb.C124_csv_scalars",
    "Rodb.C124_json_ordered"
   ],
   "note": "The other direction is not claimed: a program with full scans may start where the map index cannot be built, because a record cannot be read or has an array (C16). Filters of requests are never arrays or objects: parameters need primitive parsers. Relationships for values that are arrays or objects are left out."
  },
  {
   "property": "C125",
   "status": "proved",
   "theorems": [
    "Rodb.C125_parsers"
   ],
   "note": "Split parsers that lead back to themselves are left out (C34). For separators of floats with several characters see C65 and for empty delimiters C33. What a charset, a regular expression, strconv.ParseFloat and json.Unmarshal give are parameters."
  },
  {
   "property": "C126",
   "status": "proved",
   "theorems": [
    "Rodb.C126_accepted",
    "Rodb.C126_both_accepted",
    "Rodb.C126_loaded",
    "Rodb.C126_answers"
   ],
   "note": "Acceptance without the defaults, given acceptance with them, needs two facts about strings.ToUpper for texts that are not ASCII: it leaves texts in upper case as they are, and only the empty text becomes empty. The sorting function must return a permutation in order, as Go's does."
  },
  {
   "property": "C127",
   "status": "proved",
   "theorems": [
    "Rodb.C127_same_records",
    "Rodb.C127_csv",
    "Rodb.C127_json",
    "Rodb.C127_xml",
    "Rodb.C127_program",
    "Rodb.C127_files"
   ],
   "note": "The indexes are map indexes and full scans. The sorting function must treat alike lists whose elements compare alike, which is shown for the insertion sort of Go's library (insertionSort_onlyCompares). For XML, what was fetched before are positions of records of the file."
  },
  {
   "property": "C128",
   "status": "proved",
   "theorems": [
    "Rodb.C128_same_parameters",
    "Rodb.C128_rewritten"
   ],
   "note": "The URLs are those of C106 (a path that begins with a slash, and a query string of name=value pairs)."
  },
  {
   "property": "C129",
   "status": "proved",
   "theorems": [
    "Rodb.C129_other_methods",
    "Rodb.C129_only_url"
   ],
   "note": "The body of the response is not sent by net/http if the method is HEAD. For other methods than GET the URL is one of C106 (others are refused with status 400 before the service sees them)."
  },
  {
   "property": "C13",
   "status": "proved",
   "theorems": [
    "Rodb.C13_not_text_fails"
   ],
   "note": ""
  },
  {
   "property": "C130",
   "status": "proved",
   "theorems": [
    "Rodb.C130_distinct_names"
   ],
   "note": "The sort of the library is a permutation (part of the contract of sort.Slice)."
  },
  {
   "property": "C131",
   "status": "partial",
   "theorems": [
    "Rodb.C131_same_response_partial",
    "Rodb.C131_same_start",
    "Rodb.C131_same_list_partial",
    "Rodb.C131_same_object_partial",
    "Rodb.C131_same_list_error_partial",
    "Rodb.C131_same_object_error_partial",
    "Rodb.C131_list_refused_always",
    "Rodb.C131_object_refused_always",
    "Rodb.C131_false",
    "Rodb.C131_errors_false"
   ],
   "note": "False of the code if two parameters that are both given are on the same property of the same index: the last one visited counts (C131_false, C45), and if a relationship is matched by a property that a sibling overwrites (C49_false). Proved for all other requests that have an answer or one error (a page that makes no sense, a parameter that cannot be read), for outputs and for the whole program started on files (C131_same_response_partial): it starts for both orders, whatever the orders in which its parts are created, with the same services, routes and responses. Missing: requests with several errors, where the order can decide which one is told (C131_errors_false), but not whether there is one (C131_list_refused_always)."
  },
  {
   "property": "C14",
   "status": "proved",
   "theorems": [
    "Rodb.C14_map_exact"
   ],
   "note": ""
  },
  {
   "property": "C15",
   "status": "proved",
   "theorems": [
    "Rodb.C15_map_equals_scan"
   ],
   "note": ""
  },
  {
   "property": "C16",
   "status": "partial",
   "theorems": [
    "Rodb.C16_map_build_no_crash_partial",
    "Rodb.C16_only_scalars_indexed",
    "Rodb.C16_first_decides_partial",
    "Rodb.C16_false"
   ],
   "note": "False of the code: an array value makes the build panic. Proved without arrays; exactly which inputs panic is C16_first_decides_partial."
  },
  {
   "property": "C17",
   "status": "proved",
   "theorems": [
    "Rodb.C17_scan_exact",
    "Rodb.C17_scan_sound"
   ],
   "note": ""
  },
  {
   "property": "C18",
   "status": "partial",
   "theorems": [
    "Rodb.C18_closed_iff_drained_partial",
    "Rodb.C18_false"
   ],
   "note": "False of the code: an iterator that is not drained keeps its file open. Proved: the file is closed exactly when the iterator reported its end."
  },
  {
   "property": "C19",
   "status": "proved",
   "theorems": [
    "Rodb.C19_scan_same_type",
    "Rodb.C19_map_same_type",
    "Rodb.C19_integer_never_matches_json"
   ],
   "note": ""
  },
  {
   "property": "C20",
   "status": "proved",
   "theorems": [
    "Rodb.C20_join_is_sorted_intersection",
    "Rodb.C20_join_order_irrelevant"
   ],
   "note": ""
  },
  {
   "property": "C21",
   "status": "proved",
   "theorems": [
    "Rodb.C21_join_end_is_stable"
   ],
   "note": ""
  },
  {
   "property": "C22",
   "status": "partial",
   "theorems": [
    "Rodb.C22_join_reports_errors_partial",
    "Rodb.joinIters_complete",
    "Rodb.C63_failure_false"
   ],
   "note": "The SQLite index never checks rows.Err, so its errors can be lost before they reach the join (C63_failure_false)."
  },
  {
   "property": "C23",
   "status": "proved",
   "theorems": [
    "Rodb.C23_compare_decides",
    "Rodb.C23_compare_total_order",
    "Rodb.C23_different_types_fail"
   ],
   "note": ""
  },
  {
   "property": "C24",
   "status": "proved",
   "theorems": [
    "Rodb.C24_sorted"
   ],
   "note": ""
  },
  {
   "property": "C25",
   "status": "partial",
   "theorems": [
    "Rodb.C25_missing_values_partial",
    "Rodb.C25_false"
   ],
   "note": "False of the code: the errors met while comparing are dropped by the sort. Proved: a criterion with a missing value on either side is skipped and the result is a permutation; with all values present see C24."
  },
  {
   "property": "C26",
   "status": "partial",
   "theorems": [
    "Rodb.C26_descending_reverse_partial",
    "Rodb.C26_false"
   ],
   "note": "False of the code with NaN keys. Proved without NaN."
  },
  {
   "property": "C27",
   "status": "proved",
   "theorems": [
    "Rodb.C27_path_keys",
    "Rodb.C27_lookup",
    "Rodb.C27_json_lookup",
    "Rodb.C27_lookups_agree"
   ],
   "note": ""
  },
  {
   "property": "C28",
   "status": "partial",
   "theorems": [
    "Rodb.C28_panics_iff_negative_partial",
    "Rodb.C28_false"
   ],
   "note": "False of the code: a negative array index panics. Proved: that is the only way to panic."
  },
  {
   "property": "C29",
   "status": "proved",
   "theorems": [
    "Rodb.C29_xml_get_agrees"
   ],
   "note": ""
  },
  {
   "property": "C30",
   "status": "proved",
   "theorems": [
    "Rodb.C30_integer_parser",
    "Rodb.C30_integer_round_trip"
   ],
   "note": ""
  },
  {
   "property": "C31",
   "status": "proved",
   "theorems": [
    "Rodb.C31_remove_characters",
    "Rodb.C31_remove_ascii"
   ],
   "note": ""
  },
  {
   "property": "C32",
   "status": "proved",
   "theorems": [
    "Rodb.C32_boolean_parser"
   ],
   "note": ""
  },
  {
   "property": "C33",
   "status": "proved",
   "theorems": [
    "Rodb.C33_split_pieces",
    "Rodb.C33_split_elements",
    "Rodb.C33_empty_delimiter"
   ],
   "note": "How the library cuts a text into characters (strings.Split with an empty separator) is a hypothesis."
  },
  {
   "property": "C34",
   "status": "partial",
   "theorems": [
    "Rodb.C34_parsing_terminates_partial",
    "Rodb.C34_exactly_partial",
    "Rodb.C34_depth_irrelevant",
    "Rodb.C34_false"
   ],
   "note": "False of the code: split parsers naming each other in a cycle pass the validation. Proved when they can be ordered; C34_exactly_partial says exactly which parsers end, and that the others end for no text."
  },
  {
   "property": "C35",
   "status": "partial",
   "theorems": [
    "Rodb.C35_stateless_concurrent_partial",
    "Rodb.C35_serial_conversions",
    "Rodb.C35_false"
   ],
   "note": "False of the code for decoders with a state. Proved for all schedules with stateless decoders, and for non-overlapping conversions with any decoder."
  },
  {
   "property": "C36",
   "status": "proved",
   "theorems": [
    "Rodb.C36_position_is_bytes_consumed",
    "Rodb.C36_item_independent_of_buffering"
   ],
   "note": ""
  },
  {
   "property": "C37",
   "status": "proved",
   "theorems": [
    "Rodb.C37_csv_fetch_returns_scanned",
    "Rodb.C37_csv_scan_is_rows",
    "Rodb.C37_csv_scan_independent_of_buffering",
    "Rodb.C37_csv_is_record_table"
   ],
   "note": ""
  },
  {
   "property": "C38",
   "status": "proved",
   "theorems": [
    "Rodb.C38_concurrent_fetches",
    "Rodb.C38_lock_is_needed",
    "Rodb.C38_concurrent_json_fetches",
    "Rodb.C38_json_lock_is_needed"
   ],
   "note": "For CSV and JSON inputs. For XML inputs see C99: what a fetch gives depends on the fetches before, and they are done one after the other because of the lock."
  },
  {
   "property": "C39",
   "status": "partial",
   "theorems": [
    "Rodb.C39_record_columns",
    "Rodb.C39_width_never_fails_partial",
    "Rodb.C39_after_header",
    "Rodb.C39_first_row_partial",
    "Rodb.C39_false"
   ],
   "note": "False of the code with ignoreFirstRow: a first row of another width, or an empty file, makes the scan fail. Proved without ignoreFirstRow and for a first row of the right width; C39_first_row_partial says exactly which files can be scanned."
  },
  {
   "property": "C40",
   "status": "partial",
   "theorems": [
    "Rodb.C40_json_scan_all_documents",
    "Rodb.C40_json_malformed_reported",
    "Rodb.C40_json_nothing_lost_partial",
    "Rodb.C40_false"
   ],
   "note": "False of the code: a stray closing bracket or brace ends the scan without an error. Proved for every other content."
  },
  {
   "property": "C41",
   "status": "proved",
   "theorems": [
    "Rodb.C41_autodetect",
    "Rodb.C41_autodetected_lookup"
   ],
   "note": ""
  },
  {
   "property": "C42",
   "status": "proved",
   "theorems": [
    "Rodb.C42_window",
    "Rodb.C42_window_plain",
    "Rodb.C45_one_for_each",
    "Rodb.C42_refuses_bad_paging"
   ],
   "note": "For limits below 2^63; larger ones are C46."
  },
  {
   "property": "C43",
   "status": "proved",
   "theorems": [
    "Rodb.C43_pages"
   ],
   "note": ""
  },
  {
   "property": "C44",
   "status": "proved",
   "theorems": [
    "Rodb.C44_exactly_matching",
    "Rodb.C45_one_for_each",
    "Rodb.C44_noop_serves",
    "Rodb.C44_map_serves",
    "Rodb.C44_wildcard_serves",
    "Rodb.C44_noop_everything",
    "Rodb.C44_refuses_unreadable"
   ],
   "note": "C44_exactly_matching is for parameters on different (index, property) pairs; with any parameters it is C45_one_for_each."
  },
  {
   "property": "C45",
   "status": "partial",
   "theorems": [
    "Rodb.C45_different_indexes_partial",
    "Rodb.C45_one_for_each",
    "Rodb.C45_object_one_for_each",
    "Rodb.C45_false",
    "Rodb.C45_order_dependent"
   ],
   "note": "False of the code: on the same index the parameter visited last replaces the other. Proved for different indexes; for all requests it is proved what is answered instead: one of the given conditions counts for each property and index (C45_one_for_each)."
  },
  {
   "property": "C46",
   "status": "partial",
   "theorems": [
    "Rodb.C46_default_limit_partial",
    "Rodb.C46_every_limit_partial",
    "Rodb.C46_false"
   ],
   "note": "False of the code: a limit of 2^63 or more is accepted and then no record is returned. Proved below 2^63; what is answered for every limit is C46_every_limit_partial."
  },
  {
   "property": "C47",
   "status": "proved",
   "theorems": [
    "Rodb.C47_first_match",
    "Rodb.C45_object_one_for_each"
   ],
   "note": "C47_first_match is for parameters on different (index, property) pairs; with any parameters it is C45_object_one_for_each."
  },
  {
   "property": "C48",
   "status": "partial",
   "theorems": [
    "Rodb.C48_relationships_partial",
    "Rodb.C48_related_sorted",
    "Rodb.C48_missing_parent_property",
    "Rodb.C48_list_with_relationships",
    "Rodb.C48_object_with_relationships",
    "Rodb.C48_false"
   ],
   "note": "False of the code for limits of 2^63 or more (panic). Proved below, for relationships not matched by a property that a sibling overwrites."
  },
  {
   "property": "C49",
   "status": "partial",
   "theorems": [
    "Rodb.C49_same_answer_partial",
    "Rodb.C49_false"
   ],
   "note": "False of the code: a relationship can be matched by a property that a sibling relationship overwrites. Proved for all other configurations."
  },
  {
   "property": "C50",
   "status": "partial",
   "theorems": [
    "Rodb.C50_json_body_partial",
    "Rodb.C50_body_exactly_partial",
    "Rodb.C50_false"
   ],
   "note": "False of the code: data with NaN or an infinity gives 200 with an empty body. Proved for all other data."
  },
  {
   "property": "C51",
   "status": "partial",
   "theorems": [
    "Rodb.C51_statuses_partial",
    "Rodb.C51_groups",
    "Rodb.C51_false"
   ],
   "note": "False of the code: a panic while answering closes the connection without a status. Proved for all requests that do not panic, on routes with a group for each parameter."
  },
  {
   "property": "C52",
   "status": "proved",
   "theorems": [
    "Rodb.C52_first_route",
    "Rodb.C52_configured_order"
   ],
   "note": ""
  },
  {
   "property": "C53",
   "status": "partial",
   "theorems": [
    "Rodb.C53_placeholders_partial",
    "Rodb.C53_reported_partial",
    "Rodb.C53_false"
   ],
   "note": "False of the code: the parentheses in the patterns of booleans and floats shift the texts of later placeholders. Proved when only the last placeholder has such a pattern, and for plain texts around them; C53_reported_partial says what every placeholder receives, with any parsers."
  },
  {
   "property": "C54",
   "status": "partial",
   "theorems": [
    "Rodb.C54_literal_partial",
    "Rodb.C54_exactly_partial",
    "Rodb.C54_false"
   ],
   "note": "False of the code: route paths are used as regular expressions, '.' matches any character. Proved for paths without special characters; C54_exactly_partial says that exactly these match literally, among all accepted paths without placeholders."
  },
  {
   "property": "C55",
   "status": "partial",
   "theorems": [
    "Rodb.C55_drained_partial",
    "Rodb.C55_false"
   ],
   "note": "False of the code: main goes on when the servers stop listening, not when they are drained. Proved: all servers but the last one told to stop are drained."
  },
  {
   "property": "C56",
   "status": "proved",
   "theorems": [
    "Rodb.C56_address"
   ],
   "note": ""
  },
  {
   "property": "C57",
   "status": "proved",
   "theorems": [
    "Rodb.C57_different_names",
    "Rodb.C57_refused",
    "Rodb.C57_components",
    "Rodb.C57_loaded"
   ],
   "note": ""
  },
  {
   "property": "C58",
   "status": "partial",
   "theorems": [
    "Rodb.C58_references",
    "Rodb.C58_starts_partial",
    "Rodb.C58_opens",
    "Rodb.C58_on_files_partial",
    "Rodb.C58_graphql_false",
    "Rodb.C58_route_false"
   ],
   "note": "False of the code: GraphQL outputs and routes with unknown placeholders are accepted and then make the start fail. All references are proved to resolve; the start is proved to succeed for the other configurations when files, indexes and addresses are available."
  },
  {
   "property": "C59",
   "status": "partial",
   "theorems": [
    "Rodb.C59_collations_partial",
    "Rodb.C59_false"
   ],
   "note": "False of the code: rtrim is refused, the allowed value is misspelled. Proved for binary and nocase."
  },
  {
   "property": "C60",
   "status": "partial",
   "theorems": [
    "Rodb.C60_partial",
    "Rodb.C60_fts5_partial",
    "Rodb.C60_identifier_partial",
    "Rodb.C60_false"
   ],
   "note": "False of the code for names with a NUL character, which SQLite cuts. Proved for every statement of the index and all other names, whatever they contain."
  },
  {
   "property": "C61",
   "status": "partial",
   "theorems": [
    "Rodb.C61_partial",
    "Rodb.C61_indexes_partial",
    "Rodb.C61_false",
    "Rodb.C61_case_false"
   ],
   "note": "False of the code: the name of a SQL index does not separate index and property names, and names that differ in case share their tables. Proved: tables and columns are the same only up to the case of ASCII letters."
  },
  {
   "property": "C62",
   "status": "proved",
   "theorems": [
    "Rodb.C62_history",
    "Rodb.C62_own_name",
    "Rodb.C62_same_input",
    "Rodb.C62_builds",
    "Rodb.C62_builds_fts5"
   ],
   "note": "SQLite and FTS5 indexes in one database. Death between statements; a statement is atomic in the model of SQLite. Names without NUL (see C60)."
  },
  {
   "property": "C63",
   "status": "partial",
   "theorems": [
    "Rodb.C63_positions_partial",
    "Rodb.C63_serves_partial",
    "Rodb.C63_after_starts_partial",
    "Rodb.C63_rejects",
    "Rodb.C63_equal",
    "Rodb.C63_nocase",
    "Rodb.C63_false",
    "Rodb.C63_failure_false",
    "Rodb.C63_null_false"
   ],
   "note": "False of the code: added properties are accepted and find nothing, an error while reading rows ends the list, null finds nothing. Proved for an index that was built with its properties, when reading the rows does not fail."
  },
  {
   "property": "C64",
   "status": "proved",
   "theorems": [
    "Rodb.C64_csv_get_agrees",
    "Rodb.C64_json_get_agrees"
   ],
   "note": ""
  },
  {
   "property": "C65",
   "status": "proved",
   "theorems": [
    "Rodb.C65_float_parser"
   ],
   "note": ""
  },
  {
   "property": "C66",
   "status": "proved",
   "theorems": [
    "Rodb.C66_xml_primitive_type"
   ],
   "note": ""
  },
  {
   "property": "C67",
   "status": "proved",
   "theorems": [
    "Rodb.C67_accepted_parsers",
    "Rodb.C67_references_resolve"
   ],
   "note": ""
  },
  {
   "property": "C68",
   "status": "proved",
   "theorems": [
    "Rodb.C68_list_request"
   ],
   "note": "For route paths of plain texts and placeholders as in C53, finite numbers and limits below 2^63."
  },
  {
   "property": "C69",
   "status": "proved",
   "theorems": [
    "Rodb.C69_object_request"
   ],
   "note": "For route paths of plain texts and placeholders as in C53 and finite numbers."
  },
  {
   "property": "C70",
   "status": "proved",
   "theorems": [
    "Rodb.C70_created",
    "Rodb.C70_route_parameters",
    "Rodb.C70_array_refused",
    "Rodb.C70_object_refused"
   ],
   "note": ""
  },
  {
   "property": "C71",
   "status": "partial",
   "theorems": [
    "Rodb.C71_boolean",
    "Rodb.C71_integer_partial",
    "Rodb.C71_integer_read",
    "Rodb.C71_float_partial",
    "Rodb.C71_float_read",
    "Rodb.C71_false",
    "Rodb.C71_float_false",
    "Rodb.C71_separator_false"
   ],
   "note": "False of the code: an integer with a plus sign and a float with an exponent are read but not routed, and texts of ignored characters only, or with one character of a longer decimal separator, are routed but not read. Proved for booleans, for integers without a plus sign and decimal numbers with a separator of one character, and back for texts with digits."
  },
  {
   "property": "C72",
   "status": "proved",
   "theorems": [
    "Rodb.C72_order",
    "Rodb.C72_inside"
   ],
   "note": "C72_order: the maps of components; C72_inside: the maps of parameters and relationships inside of the outputs, at any depth."
  },
  {
   "property": "C73",
   "status": "partial",
   "theorems": [
    "Rodb.C73_paging_partial",
    "Rodb.C73_exactly_partial",
    "Rodb.C73_false"
   ],
   "note": "False of the code: the limit and the offset can have one name. Proved for the filters and the default limit; C73_exactly_partial says exactly when they have one name."
  },
  {
   "property": "C74",
   "status": "partial",
   "theorems": [
    "Rodb.C74_no_panic_partial",
    "Rodb.C74_exactly_partial",
    "Rodb.C74_false"
   ],
   "note": "False of the code: a path that cannot be looked at for another reason than being absent makes loading panic. Proved otherwise; C74_exactly_partial says exactly which of the configurations that are right in everything else panic."
  },
  {
   "property": "C75",
   "status": "proved",
   "theorems": [
    "Rodb.C75_no_repetition"
   ],
   "note": ""
  },
  {
   "property": "C76",
   "status": "proved",
   "theorems": [
    "Rodb.C76_accepted"
   ],
   "note": "Well-formed as the code understands it: the third collation is misspelt (C59)."
  },
  {
   "property": "C77",
   "status": "proved",
   "theorems": [
    "Rodb.C77_defaults"
   ],
   "note": ""
  },
  {
   "property": "C78",
   "status": "proved",
   "theorems": [
    "Rodb.C78_running"
   ],
   "note": ""
  },
  {
   "property": "C79",
   "status": "partial",
   "theorems": [
    "Rodb.C79_list_request_partial",
    "Rodb.C79_object_request_partial",
    "Rodb.C79_list_related_partial",
    "Rodb.C79_object_related_partial"
   ],
   "note": "Outputs with relationships nested to any depth that fit the data (Fits; other relationships are C48_false and C49_false); placeholders whose parsers give plain patterns; indexes of any kind that find what they are expected to (IndexesFind, proved for the indexes on disk by C80). Opening the file is a parameter of the model (its records are given by RecordsOf; C83, C86, C87 and C89 derive them from the bytes of the files)."
  },
  {
   "property": "C80",
   "status": "partial",
   "theorems": [
    "Rodb.C80_indexes_find_partial"
   ],
   "note": "SQLite must give the rows in the order of their insertion and reading them must not fail (the code neither orders the rows nor checks the error, see C63). What FTS5 matches is a parameter."
  },
  {
   "property": "C81",
   "status": "partial",
   "theorems": [
    "Rodb.C81_positions_partial",
    "Rodb.C81_serves_partial",
    "Rodb.C81_after_starts_partial",
    "Rodb.C81_rejects",
    "Rodb.C81_malformed_false",
    "Rodb.C81_type_false"
   ],
   "note": "False of the code: an expression that FTS5 refuses gives an empty answer instead of an error, and an index whose type was changed in the configuration is accepted and finds nothing. Proved for an index that was built as configured, when reading the rows does not fail; what FTS5 matches is a parameter of the model."
  },
  {
   "property": "C82",
   "status": "proved",
   "theorems": [
    "Rodb.C82_csv_table",
    "Rodb.C82_header",
    "Rodb.C82_verbatim",
    "Rodb.C82_misquoted",
    "Rodb.C82_unclosed",
    "Rodb.C82_bad_delimiter"
   ],
   "note": "encoding/csv is modelled from its source and is part of the trusted base. A delimiter that is a quote, accepted by validation, makes every read fail (C82_bad_delimiter)."
  },
  {
   "property": "C83",
   "status": "proved",
   "theorems": [
    "Rodb.C83_list_from_csv",
    "Rodb.C83_object_from_csv"
   ],
   "note": "For outputs without relationships, on inputs whose indexes are map indexes or full scans, with parameters on columns or paths into them; the JSON encoder and the regular expressions of the router by their contracts."
  },
  {
   "property": "C84",
   "status": "proved",
   "theorems": [
    "Rodb.C84_body_is_json_text",
    "Rodb.C84_encoder_contract",
    "Rodb.C84_same_data_same_bytes",
    "Rodb.C84_every_response",
    "Rodb.C84_error_messages",
    "Rodb.C84_false"
   ],
   "note": "The shortest decimal text of a float is a parameter, assumed to be a JSON number. C84_false shows that different texts that are not valid UTF-8 can be written in the same way."
  },
  {
   "property": "C85",
   "status": "proved",
   "theorems": [
    "Rodb.C85_json_file",
    "Rodb.C85_only_json",
    "Rodb.C85_parser_reads",
    "Rodb.C85_parser_strict",
    "Rodb.C85_written_is_read"
   ],
   "note": "strconv.ParseFloat is a parameter. A closing bracket too many after the last object ends the scan without an error (C40)."
  },
  {
   "property": "C86",
   "status": "proved",
   "theorems": [
    "Rodb.C86_list_from_json",
    "Rodb.C86_object_from_json"
   ],
   "note": "For outputs without relationships, on inputs whose indexes are map indexes or full scans, with paths that can be followed in every object and keys that are distinct; the regular expressions of the router by their contract; the texts of floats as parameters."
  },
  {
   "property": "C87",
   "status": "proved",
   "theorems": [
    "Rodb.C87_list_from_files",
    "Rodb.C87_object_from_files"
   ],
   "note": "For CSV, JSON and XML inputs (XML files as in C100) whose indexes are map indexes or full scans, and relationships that fit the data (FitsObjects; others are C48_false and C49_false). Sorted relationships are in order if the values at each criterion are of one type; otherwise only the objects shown are specified (C24)."
  },
  {
   "property": "C88",
   "status": "partial",
   "theorems": [
    "Rodb.C88_unchanged_partial",
    "Rodb.C88_written_partial",
    "Rodb.C88_notice_ends",
    "Rodb.C88_unwritten",
    "Rodb.C88_tolerant",
    "Rodb.C88_files_exist",
    "Rodb.C88_false"
   ],
   "note": "False of the code when the path is made to lead to another file (rename, remove and create): no Write event is sent, the program goes on, scans use the new file and fetches the old one (C88_false). Proved for files that are changed in place, when the system drops no notices. What the operating system and fsnotify notify is an assumption, stated in the step relation."
  },
  {
   "property": "C89",
   "status": "partial",
   "theorems": [
    "Rodb.C89_list_stored_partial",
    "Rodb.C89_object_stored_partial"
   ],
   "note": "The order of the file and completeness need what SQLite does not promise: rows in the order of their insertion, and reads that do not fail (ReadsInOrder; the code neither orders the rows nor checks the error, see C63). What FTS5 matches is a parameter. Wildcard files are absent or complete (a file that was cut off is C09). Values that cannot be asked of an index (empty wildcard texts, a full-text filter that is not called match) are excluded by Askable. XML files are those of C100."
  },
  {
   "property": "C90",
   "status": "proved",
   "theorems": [
    "Rodb.C90_list_refused",
    "Rodb.C90_object_refused",
    "Rodb.C90_others_are_read"
   ],
   "note": "That strconv.ParseFloat and the decoders of charsets return a value or an error is an assumption (ParsersReturn). Routes as in C53."
  },
  {
   "property": "C91",
   "status": "partial",
   "theorems": [
    "Rodb.C91_variables_replaced_partial",
    "Rodb.C91_no_dollar",
    "Rodb.C91_false"
   ],
   "note": "os.ExpandEnv is modelled from Go's os/env.go, which is part of the trusted base. False for other uses of `$`: `$5` disappears, and without variables no text of the file gives a `$` followed by a letter, a digit or `_` (C91_false). Proved for texts made of references and text without `$`."
  },
  {
   "property": "C92",
   "status": "proved",
   "theorems": [
    "Rodb.C92_document",
    "Rodb.C92_written_is_read",
    "Rodb.C92_only_documented_settings"
   ],
   "note": "The document is the tree that yaml.v2's parser makes of the text. The decoding into structures (decode.go) is modelled from the library, which is part of the trusted base. Four fields of the program that have no setting can be given under their names in lower case (logger, delimiterregexp, columnindexbyname, compiledxpath); floats are accepted for whole numbers and cut off; any scalar is accepted for a text."
  },
  {
   "property": "C93",
   "status": "partial",
   "theorems": [
    "Rodb.C93_accepted",
    "Rodb.C93_running",
    "Rodb.C93_written",
    "Rodb.C93_no_panic_partial",
    "Rodb.C93_false"
   ],
   "note": "Acceptance is proved as an equivalence. Refusing without a panic is false: an empty element in one of the lists panics (C93_false), and so does an error of the operating system for the path of an input (C74_false). Proved without both. The YAML parser is a parameter."
  },
  {
   "property": "C94",
   "status": "proved",
   "theorems": [
    "Rodb.C94_exit_status"
   ],
   "note": "That Serve returns ErrServerClosed after Shutdown, and that Shutdown returns no error, are assumptions on net/http."
  },
  {
   "property": "C95",
   "status": "partial",
   "theorems": [
    "Rodb.C95_failure_ends_partial",
    "Rodb.C95_exactly_partial",
    "Rodb.C95_false"
   ],
   "note": "False of the code: the program waits for its servers one after the other and notices a failure only when the others before have stopped (C95_false). Proved once all the servers have stopped; exactly when the program ends by itself is C95_exactly_partial."
  },
  {
   "property": "C96",
   "status": "partial",
   "theorems": [
    "Rodb.C96_signal_ends_partial",
    "Rodb.C96_exactly_partial",
    "Rodb.C96_false"
   ],
   "note": "False of the code with several services of which one has a failed server: Close gives up at it, the others are never shut down, and if the program waits for one of them it can only be killed (C96_false). Proved if no server failed, or with one service; exactly when it ends by itself is C96_exactly_partial."
  },
  {
   "property": "C97",
   "status": "proved",
   "theorems": [
    "Rodb.C97_pages_from_files"
   ],
   "note": "From the bytes of the files to the bodies of the answers, for the outputs, indexes and inputs (CSV, JSON, and XML as in C100) of C87 (map and default indexes, relationships to any depth)."
  },
  {
   "property": "C98",
   "status": "proved",
   "theorems": [
    "Rodb.C98_xml_scan",
    "Rodb.C98_xml_ends",
    "Rodb.C98_xml_malformed"
   ],
   "note": "From the tokens on. The lexer and the evaluation of XPath are parameters; the expression is one that selects elements anywhere in the document by their name and attributes, as //item does."
  },
  {
   "property": "C99",
   "status": "partial",
   "theorems": [
    "Rodb.C99_xml_fetch_partial",
    "Rodb.C99_false",
    "Rodb.C99_path_false"
   ],
   "note": "False of the code: fetches share one stream parser, whose state depends on the fetches before. Proved for expressions like //item and documents without a record after the end of an element with a record in it, for any history of fetches. For every other document a record cannot be fetched, and no fetch works any more afterwards (C99_false). For an expression like /root/item a record cannot be fetched by its position, or only once (C99_path_false)."
  }
 ]
}