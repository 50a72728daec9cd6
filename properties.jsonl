{"id": "C01", "title": "Index stream reads its own writes", "statement": "Any sequence of add, replace, flush and get calls on the wildcard index stream behaves like one flat growable byte array: a get returns exactly the bytes last written at those addresses, whatever part of them is still buffered and whatever part is already in the file.", "quantifier": "every operation history, every offset and length, every buffer size, every byte content", "why_tests_cant": "The boundary between buffer and file falls at a different place for every history; tests only sample a handful of boundaries.", "anchors": ["pkg/index/wildcard/stream.go: Stream.Get, Stream.Add, Stream.Replace, Stream.Flush"]}
{"id": "C02", "title": "Flushed stream content survives reopening", "statement": "After Flush the file holds exactly the logical content of the stream, and a stream freshly opened on that file with its size returns the same bytes for every read.", "quantifier": "every operation history followed by Flush and reopen", "why_tests_cant": "Needs every history, including ones where only part of the data was ever buffered.", "anchors": ["pkg/index/wildcard/stream.go: Stream.Flush, NewStream"]}
{"id": "C03", "title": "On-disk cells round-trip", "statement": "Every tree node, every position cell and every metadata block whose fields fit in their declared widths is read back field by field exactly as it was written.", "quantifier": "all field values within 64-bit (16-bit for the version, any number of root offsets)", "why_tests_cant": "2^448 node values; tests try a few literals.", "anchors": ["pkg/index/wildcard/node.go: TreeNode.Serialize, TreeNode.Unserialize", "pkg/index/wildcard/position.go: PositionLinkedList.Serialize/Unserialize", "pkg/index/wildcard/metadata.go: Metadata.Serialize/Unserialize"]}
{"id": "C04", "title": "Wildcard search finds exactly the records containing the substring", "statement": "For a wildcard index built from any records, a query for a non-empty string returns exactly the positions of the records whose property value contains that string as a contiguous substring: none missing, none extra.", "quantifier": "every finite sequence of records with increasing positions, every string value, every non-empty query, every buffer size", "why_tests_cant": "The tree shape depends on the whole history of splits; the number of histories is unbounded.", "anchors": ["pkg/index/wildcard.go: Wildcard.createIndex, Wildcard.GetRecordPositions", "pkg/index/wildcard/node.go: TreeNode.AddAllSequences, addSequence, GetSequence, FindChildByPrefix, AppendChild, AppendPositionIfNotExists", "pkg/index/wildcard/position.go: Copy, Iterate"]}
{"id": "C05", "title": "Wildcard results are sorted and duplicate free", "statement": "The positions a wildcard query yields are strictly increasing, as the index contract requires, even when the substring occurs several times in one record.", "quantifier": "every sequence of records with increasing positions, every query", "why_tests_cant": "Depends on all histories of node splits and position copies.", "anchors": ["pkg/index/index.go: Index", "pkg/index/wildcard.go: GetRecordPositions", "pkg/index/wildcard/node.go: AppendPositionIfNotExists"]}
{"id": "C06", "title": "Wildcard query with an empty string", "statement": "Every string contains the empty string, so a wildcard query for the empty string should return every indexed record.", "quantifier": "every set of records, empty query", "why_tests_cant": "It is a universally quantified statement over all data sets.", "anchors": ["pkg/index/wildcard/node.go: TreeNode.GetSequence"]}
{"id": "C07", "title": "Case-insensitive wildcard search", "statement": "With ignoreCase the query matches a record iff the lower-cased value contains the lower-cased query; without it, matching is byte exact.", "quantifier": "every lower-casing function result, all records, all queries", "why_tests_cant": "Ranges over all strings.", "anchors": ["pkg/index/wildcard.go: addValueToIndex, GetRecordPositions", "pkg/index/wildcard_config.go: ShouldIgnoreCase"]}
{"id": "C08", "title": "A reloaded wildcard index answers like the freshly built one", "statement": "Restarting rodb with an existing, completely written index file (same configuration, unchanged input) loads successfully and every query gets the same answer as from the process that built it.", "quantifier": "every data set and every query", "why_tests_cant": "Requires equality for all queries on all data sets.", "anchors": ["pkg/index/wildcard.go: NewWildcard, createIndex, loadIndex", "pkg/index/wildcard/metadata.go: LoadMetadata, GetRootNode"]}
{"id": "C09", "title": "An interrupted wildcard build is never accepted as complete", "statement": "If the process dies at any moment while the index file is being built, the next start either refuses the file or serves exactly the answers of the full index.", "quantifier": "every data set and every crash point (every prefix of the file writes)", "why_tests_cant": "Crash points are not reachable by unit tests and there is one per write.", "anchors": ["pkg/index/wildcard.go: createIndex lines 127-134", "pkg/index/wildcard/stream.go: Replace, Flush", "pkg/index/wildcard/metadata.go: Save, AssertValid"]}
{"id": "C10", "title": "A stale or foreign wildcard index file is refused", "statement": "An existing index file is accepted only if it was produced by a completed build of the same index version for the same input contents and the same configuration.", "quantifier": "every pair of (file metadata, current input and configuration)", "why_tests_cant": "Ranges over all inputs and configurations.", "anchors": ["pkg/index/wildcard/metadata.go: AssertValid"]}
{"id": "C11", "title": "Loading an arbitrary index file never crashes the process", "statement": "Whatever bytes are found in the configured index file, opening the index either succeeds or reports an error; it never panics.", "quantifier": "every byte string", "why_tests_cant": "Unbounded set of corrupt files.", "anchors": ["pkg/index/wildcard/metadata.go: LoadMetadata, Unserialize"]}
{"id": "C12", "title": "Several wildcard filters are conjoined", "statement": "Querying a wildcard index on several properties returns exactly the positions whose record satisfies all the filters, in increasing order, independently of the order in which the filters are visited.", "quantifier": "every data set, every set of filters, every map iteration order", "why_tests_cant": "Go map iteration order is random.", "anchors": ["pkg/index/wildcard.go: GetRecordPositions", "pkg/input/record/join.go: JoinPositionIterators"]}
{"id": "C13", "title": "Non-string data makes the wildcard build fail loudly", "statement": "If some record has a null, numeric, boolean, array or object value in a wildcard-indexed property, the build reports an error and the file left behind is refused by the next start; it is never silently incomplete.", "quantifier": "every data set containing at least one such value at any place", "why_tests_cant": "Ranges over all data sets and positions of the bad value.", "anchors": ["pkg/index/wildcard.go: addValueToIndex, createIndex"]}
{"id": "C14", "title": "Map index finds exactly the records with equal values", "statement": "A map index query returns exactly the positions of the records whose indexed properties are strictly equal to the filters (same type, same value), in increasing order.", "quantifier": "every data set of scalar values, every filter set, every map iteration order", "why_tests_cant": "Ranges over all data sets and iteration orders.", "anchors": ["pkg/index/map.go: reindex, addValueToIndex, GetRecordPositions"]}
{"id": "C15", "title": "Indexes are transparent: map index equals full scan", "statement": "For scalar data, replacing the default (noop) index of a parameter by a map index on the same property does not change which records are returned nor their order.", "quantifier": "every data set, every non-empty filter set on indexed properties", "why_tests_cant": "Equality of two algorithms on all inputs.", "anchors": ["pkg/index/map.go: GetRecordPositions", "pkg/index/noop.go: GetRecordPositions"]}
{"id": "C16", "title": "Indexing a record never crashes the process", "statement": "Building a map index on any record data either succeeds or returns an error, including when the property holds an array (the code explicitly tries to index array elements).", "quantifier": "every record value", "why_tests_cant": "Recursive values are an infinite domain.", "anchors": ["pkg/index/map.go: addValueToIndex lines 103-121"]}
{"id": "C17", "title": "Full scan returns exactly the matching records", "statement": "The noop index yields exactly, in input order, the positions of the records whose properties equal all the filters, and keeps returning the end marker once exhausted.", "quantifier": "every input, every filter set, any number of calls", "why_tests_cant": "Iterators are histories of calls.", "anchors": ["pkg/index/noop.go: GetRecordPositions"]}
{"id": "C18", "title": "A request releases the files it opened", "statement": "Every file opened to serve a request is closed once the response has been produced.", "quantifier": "every request, data set, limit and offset", "why_tests_cant": "Leaks show only over unbounded request histories.", "anchors": ["pkg/index/noop.go: GetRecordPositions lines 40-90", "pkg/output/json_object.go: Handle", "pkg/output/json_array.go: Handle"]}
{"id": "C19", "title": "No implicit type conversion in filters", "statement": "A filter never matches a record value of a different type: text never equals a number, and a value parsed by the integer parser never equals a JSON number.", "quantifier": "all values and filters", "why_tests_cant": "Infinite domain of values.", "anchors": ["pkg/index/noop.go: GetRecordPositions", "pkg/index/map.go", "pkg/input/json.go: Get", "pkg/parser/integer.go: Parse"]}
{"id": "C20", "title": "Joining position iterators is sorted intersection", "statement": "Joining any number of iterators that yield increasing positions yields, in increasing order, exactly the positions common to all of them, independently of the order in which the iterators are given.", "quantifier": "every number of iterators, all increasing lists, all permutations", "why_tests_cant": "Unbounded lists; the merge re-reads all iterators at every call.", "anchors": ["pkg/input/record/join.go: JoinPositionIterators"]}
{"id": "C21", "title": "A joined iterator stays at its end", "statement": "Once the joined iterator has reported the end, every further call reports the end again, whatever sorted iterators it joins.", "quantifier": "all sorted iterators, any number of extra calls", "why_tests_cant": "Histories of calls.", "anchors": ["pkg/input/record/record.go: PositionIterator", "pkg/input/record/join.go"]}
{"id": "C22", "title": "Errors of an index are reported, not swallowed", "statement": "If an iterator fails while positions are being fetched, the join reports that error instead of silently ending the result.", "quantifier": "all iterators and failure points", "why_tests_cant": "Failure points are unbounded.", "anchors": ["pkg/input/record/join.go", "pkg/index/sqlite.go: GetRecordPositions", "pkg/index/fts5.go: GetRecordPositions"]}
{"id": "C23", "title": "Comparison of parsed values is a total order within a type", "statement": "For two values of the same primitive type the comparison is reflexive-equal, antisymmetric and transitive: exactly one of less, equal, greater holds.", "quantifier": "all pairs/triples of strings, integers, booleans and non-NaN floats", "why_tests_cant": "Infinite domain.", "anchors": ["pkg/parser/parser.go: Compare"]}
{"id": "C24", "title": "Sorted relationships are sorted", "statement": "Sorting records by a list of criteria returns a permutation of them in which no record precedes one that must come before it by the lexicographic order of the criteria.", "quantifier": "all lists of records whose sort properties have one primitive type each, all criteria, any correct comparison sort", "why_tests_cant": "Unbounded lists and criteria.", "anchors": ["pkg/input/record/sort.go: Sort, Less"]}
{"id": "C25", "title": "Records with missing sort values keep the others sorted", "statement": "When some records lack the sort property (null), the remaining records still come out ordered by it.", "quantifier": "all lists of records with null or mixed-type or NaN sort values", "why_tests_cant": "Depends on the list and on the sorting algorithm's comparisons.", "anchors": ["pkg/input/record/sort.go: Less", "pkg/parser/parser.go: Compare"]}
{"id": "C26", "title": "Descending is the reverse of ascending", "statement": "For values of one primitive type, sorting descending orders two different values exactly opposite to ascending and keeps equal values equal.", "quantifier": "all values", "why_tests_cant": "Infinite domain.", "anchors": ["pkg/input/record/sort.go: Less lines 47-51"]}
{"id": "C27", "title": "Dotted path lookup", "statement": "Looking up a dotted path in a parsed value walks objects by key and arrays by index; a missing key or an index past the end yields null, and only a path through a primitive or a non-numeric array index is an error. The JSON input and the shared helper used by CSV and XML agree.", "quantifier": "all values and paths", "why_tests_cant": "Values and paths are recursive.", "anchors": ["pkg/input/record/path.go: GetSubValue", "pkg/input/json_record.go: getSubValue"]}
{"id": "C28", "title": "Path lookup never crashes", "statement": "A path lookup returns a value, null or an error for every path; it never panics.", "quantifier": "all values and paths, including negative indexes", "why_tests_cant": "Infinite domain.", "anchors": ["pkg/input/record/path.go: GetSubValue line 30", "pkg/input/json_record.go line 66", "pkg/input/xml_record.go line 228"]}
{"id": "C29", "title": "XML property lookup agrees with the whole record", "statement": "For an XML record whose full conversion succeeds, looking up a path gives the value found at that path in the full conversion.", "quantifier": "every property configuration tree, every document, every path", "why_tests_cant": "Recursive configuration and documents.", "anchors": ["pkg/input/xml_record.go: Get, getSubValue, All, getAllValues"]}
{"id": "C30", "title": "Integer parser round-trip and range", "statement": "The integer parser returns n for the decimal text of every 64-bit integer n (optionally with ignored characters inserted anywhere), and returns an error for every text that is not an optionally signed digit sequence in range.", "quantifier": "all 64-bit integers, all texts", "why_tests_cant": "2^64 integers, infinite texts.", "anchors": ["pkg/parser/integer.go: Parse", "pkg/util/utils.go: RemoveCharacters"]}
{"id": "C31", "title": "Ignored characters are removed, everything else is kept", "statement": "Removing a set of characters from a text deletes exactly the characters of that set and keeps the others in order.", "quantifier": "all texts and character sets", "why_tests_cant": "Infinite domain.", "anchors": ["pkg/util/utils.go: RemoveCharacters"]}
{"id": "C32", "title": "Boolean parser decides by the configured lists", "statement": "A text yields true iff it is listed in trueValues, false iff it is listed only in falseValues, and is an error otherwise.", "quantifier": "all configurations and texts", "why_tests_cant": "Infinite domain.", "anchors": ["pkg/parser/boolean.go: Parse", "pkg/util/utils.go: IsInArray"]}
{"id": "C33", "title": "Split parser keeps every piece", "statement": "Splitting on a non-empty literal delimiter and re-joining with it restores the text, no piece contains the delimiter, and the result has one element per piece, each parsed by the configured parser, in order; any failing piece makes the whole parse fail. With an empty delimiter the pieces are the characters of the text.", "quantifier": "all texts, delimiters and inner parsers", "why_tests_cant": "Infinite domain.", "anchors": ["pkg/parser/split.go: Parse"]}
{"id": "C34", "title": "Parsing always terminates for an accepted configuration", "statement": "With any parser configuration accepted at startup, parsing any text terminates.", "quantifier": "all accepted parser configurations, all texts", "why_tests_cant": "Non-termination cannot be observed by a finite test.", "anchors": ["pkg/parser/split_config.go: Validate", "pkg/parser/split.go: Parse"]}
{"id": "C35", "title": "Charset conversion is correct under concurrency", "statement": "A string parser shared by concurrent requests converts every value as if it were used by a single request.", "quantifier": "all schedules of concurrent conversions, all decoders", "why_tests_cant": "Schedules are not controllable in tests.", "anchors": ["pkg/parser/string.go: Parse (shared decoder)"]}
{"id": "C36", "title": "Reader position is independent of buffering", "statement": "The position reported for the next record equals the number of bytes consumed so far, whatever amounts the buffered reader pre-read.", "quantifier": "every sequence of reads, refills of any size and seeks", "why_tests_cant": "Refill sizes depend on the OS.", "anchors": ["pkg/util/bufio.go: GetBufferedReaderOffset, SetBufferedReaderOffset"]}
{"id": "C37", "title": "CSV records can be fetched back by position", "statement": "For every record produced by a CSV scan, fetching its reported position returns the same row; positions are strictly increasing.", "quantifier": "every file content, every row reader that consumes a prefix of the remaining bytes, every refill schedule, every number of earlier fetches", "why_tests_cant": "Ranges over all files and buffer states.", "anchors": ["pkg/input/csv.go: Get, IterateAll", "pkg/util/bufio.go"]}
{"id": "C38", "title": "Concurrent record fetches do not mix rows", "statement": "When any number of requests fetch records concurrently, each gets the row at the position it asked for.", "quantifier": "every number of threads and every interleaving of their steps", "why_tests_cant": "Schedules cannot be enumerated by tests.", "anchors": ["pkg/input/csv.go: Get (readerLock)", "pkg/input/json.go: Get", "pkg/input/xml.go: Get"]}
{"id": "C39", "title": "CSV rows with too few or too many columns", "statement": "A record always has exactly the configured columns: surplus cells are ignored and missing ones are null; a row of the wrong width never makes a scan fail.", "quantifier": "all column configurations and row widths", "why_tests_cant": "Infinite domain.", "anchors": ["pkg/input/csv_record.go: getColumn, All", "pkg/input/csv.go: IterateAll lines 184-189"]}
{"id": "C40", "title": "JSON scan visits every document", "statement": "Scanning a JSON-lines file yields every document of the file, and fetching a reported position yields that document; malformed content is reported as an error.", "quantifier": "every file content", "why_tests_cant": "Infinite domain of files.", "anchors": ["pkg/input/json.go: IterateAll, Get"]}
{"id": "C41", "title": "Column autodetection gives unambiguous columns", "statement": "Autodetection succeeds exactly when the header cells are non-empty and pairwise distinct, and then the i-th column is named by the i-th cell and looked up at index i.", "quantifier": "all header rows", "why_tests_cant": "Infinite domain.", "anchors": ["pkg/input/csv.go: autodetectColumns"]}
{"id": "C42", "title": "Pagination returns the requested window", "statement": "A list response holds exactly the records ranked offset+1 to offset+limit in the filtered sequence, limit being the requested or default limit capped by the configured maximum.", "quantifier": "all data, limits, offsets and configurations", "why_tests_cant": "Unbounded data and numbers.", "anchors": ["pkg/output/json_array.go: Handle, getLimit, getOffset"]}
{"id": "C43", "title": "Pages partition the result", "statement": "Walking the pages with offset 0, L, 2L, ..., with the same conditions (no two on the same property of the same index), lists every matching record exactly once and in order.", "quantifier": "all data and page sizes within the maximum", "why_tests_cant": "Unbounded.", "anchors": ["pkg/output/json_array.go: Handle"]}
{"id": "C44", "title": "List output returns exactly the records matching all given parameters", "statement": "A list response (before paging) contains exactly the records that satisfy every supplied parameter (of several on the same property of the same index one counts, see C45), in position order, whatever mix of noop, map and wildcard indexes serves them and whatever order Go visits the maps.", "quantifier": "all data sets, parameter sets, index choices and map iteration orders", "why_tests_cant": "Random map order and unbounded data.", "anchors": ["pkg/output/json_array.go: getFiltersPerIndex, Handle", "pkg/output/json_common.go: getFilteredRecordPositionsPerIndex"]}
{"id": "C45", "title": "Two parameters on one property are both applied", "statement": "When two request parameters are configured on the same property and index, both restrict the result, deterministically.", "quantifier": "all parameter values and map iteration orders", "why_tests_cant": "Map iteration order is random per run.", "anchors": ["pkg/output/json_array.go: getFiltersPerIndex", "pkg/output/parameter/config.go: Validate"]}
{"id": "C46", "title": "Every configured page limit is honoured", "statement": "For every accepted limit configuration a request without a limit parameter returns up to the default number of records.", "quantifier": "all accepted limit configurations", "why_tests_cant": "64-bit domain.", "anchors": ["pkg/output/json_array.go: Handle line 111", "pkg/output/json_array_config.go: Validate"]}
{"id": "C47", "title": "Object output returns the first match or not-found", "statement": "An object response is the first record, in position order, matching all the parameters (of several on the same property of the same index one counts, see C45), or a not-found error when there is none.", "quantifier": "all data sets and parameters", "why_tests_cant": "Unbounded.", "anchors": ["pkg/output/json_object.go: Handle, getRouteFiltersPerIndex"]}
{"id": "C48", "title": "Relationship contents", "statement": "A relationship array holds the first `limit` (all if 0) of the sorted related records and a single relationship holds the first related record or null, each with its own nested relationships loaded.", "quantifier": "all data, nesting depths, limits and sort criteria", "why_tests_cant": "Unbounded recursion.", "anchors": ["pkg/output/json_common.go: loadRelationships"]}
{"id": "C49", "title": "Sibling relationships are independent", "statement": "The loaded data does not depend on the order in which sibling relationships are processed.", "quantifier": "all relationship maps and iteration orders", "why_tests_cant": "Random map order.", "anchors": ["pkg/output/json_common.go: loadRelationships"]}
{"id": "C50", "title": "A success status carries a JSON body", "statement": "Whenever the service answers 200, the body is the JSON encoding of the selected data.", "quantifier": "all data that the inputs can produce", "why_tests_cant": "Unbounded data.", "anchors": ["pkg/output/json_array.go: Handle line 135", "pkg/output/json_object.go: Handle line 118", "pkg/parser/float.go: Parse"]}
{"id": "C51", "title": "Error statuses", "statement": "The service answers 404 exactly when no route matches or the record is not found, 500 for any other failure, and 200 otherwise; exactly one status is sent per request.", "quantifier": "all requests, routes and output behaviours", "why_tests_cant": "Unbounded.", "anchors": ["pkg/service/http.go: getHandlerFunc, sendErrorResponse"]}
{"id": "C52", "title": "Routing picks the first matching route", "statement": "A request is served by the first configured route whose path pattern matches and whose output accepts the method and content type.", "quantifier": "all route lists and requests", "why_tests_cant": "Unbounded.", "anchors": ["pkg/service/http.go: getMatchingRoute"]}
{"id": "C53", "title": "Path placeholders receive the text they matched", "statement": "Each placeholder of a route path gets exactly the text matched at its place, and overrides a query parameter of the same name.", "quantifier": "all route paths, parser patterns and request paths", "why_tests_cant": "Combination of parser patterns is unbounded.", "anchors": ["pkg/service/http.go: createPathRegexp, getParams", "pkg/parser/boolean.go: GetRegexpPattern", "pkg/parser/float.go: GetRegexpPattern"]}
{"id": "C54", "title": "Literal route paths match literally", "statement": "A route path without placeholders matches exactly the request path equal to it.", "quantifier": "all paths", "why_tests_cant": "Infinite domain.", "anchors": ["pkg/service/http.go: createPathRegexp line 155-173"]}
{"id": "C55", "title": "Shutdown lets in-flight requests finish", "statement": "On an interrupt signal every request already being served is completed before the indexes and inputs are closed and the process exits.", "quantifier": "every interleaving of signal, requests and shutdown steps", "why_tests_cant": "Schedules.", "anchors": ["cmd/main.go: main", "pkg/service/http.go: Close, Wait"]}
{"id": "C56", "title": "Displayed address", "statement": "The displayed service address replaces a wildcard listen address by 127.0.0.1 and leaves any other address unchanged, whatever order the replacements are tried in.", "quantifier": "all addresses, all iteration orders", "why_tests_cant": "Random map order.", "anchors": ["pkg/util/utils.go: GetAddress"]}
{"id": "C57", "title": "Configuration names are unique and defaults never override", "statement": "Reading the components of a configuration fails iff two of one kind share a name; otherwise each declared component is kept and a default is added only for absent names.", "quantifier": "all configurations", "why_tests_cant": "Unbounded.", "anchors": ["pkg/config/config.go: NewConfigFromParsedConfig, addDefaultConfigs"]}
{"id": "C58", "title": "A validated configuration can be instantiated", "statement": "If validation succeeds, every reference between parsers, inputs, indexes, outputs and services resolves and construction does not fail for a missing or unsupported component.", "quantifier": "all configurations, all map iteration orders", "why_tests_cant": "Unbounded.", "anchors": ["pkg/config/config.go: Validate", "pkg/output/output.go: NewFromConfig", "pkg/output/relationship/config.go", "pkg/output/parameter/config.go"]}
{"id": "C59", "title": "Documented collations are accepted", "statement": "Every collation documented for the sqlite index (binary, nocase, rtrim), in any letter case, is accepted by validation.", "quantifier": "all spellings of the documented values", "why_tests_cant": "Case variants.", "anchors": ["pkg/index/sqlite_config.go: SqlitePropertyCollateAllowedValues", "docs/schema/indexes/sqlite.yaml"]}
{"id": "C60", "title": "Identifiers are quoted safely", "statement": "Any index or property name, including one containing quotes, is embedded in SQL as one quoted identifier denoting exactly that name.", "quantifier": "all names", "why_tests_cant": "Injection strings are an infinite domain.", "anchors": ["pkg/index/sqlite/sanitize.go: SanitizeIdentifier", "pkg/index/sqlite.go: createIndex, GetRecordPositions", "pkg/index/fts5.go: createIndex, GetRecordPositions"]}
{"id": "C61", "title": "Different indexes never share SQL objects", "statement": "Two indexes or properties with different names stored in one database use different table, index and metadata names.", "quantifier": "all pairs of names", "why_tests_cant": "Infinite domain.", "anchors": ["pkg/index/sqlite.go: getIndexTableIdentifier, getIndexIdentifier", "pkg/index/sqlite/metadata.go: GetTableIdentifier"]}
{"id": "C62", "title": "An interrupted sqlite build is never accepted as complete", "statement": "If the process dies between any two SQL statements of an index build, the next start rebuilds or refuses; it never accepts a partially filled table.", "quantifier": "every data set, every index whose names contain no NUL character, every history of starts and every crash point between statements", "why_tests_cant": "Crash points.", "anchors": ["pkg/index/sqlite.go: NewSqlite, createIndex", "pkg/index/sqlite/metadata.go: Save, HasMetadata, LoadMetadata, AssertValid"]}
{"id": "C63", "title": "SQLite index finds exactly the records with equal values", "statement": "A sqlite index query returns exactly the positions of the records whose indexed columns equal all the filters; a filter on a property that the stored index does not have is rejected.", "quantifier": "all data sets, filters and map iteration orders", "why_tests_cant": "Unbounded.", "anchors": ["pkg/index/sqlite.go: createIndex, GetRecordPositions"]}
{"id": "C64", "title": "CSV and JSON property lookup agrees with the whole record", "statement": "For a CSV record whose full conversion succeeds, and for every JSON record, looking up a path gives the value found at that path in the full conversion, null for missing keys and indexes; for CSV, an unknown column is an error.", "quantifier": "all column configurations, rows, documents and paths", "why_tests_cant": "Recursive values and paths.", "anchors": ["pkg/input/csv_record.go: Get, All, getColumn", "pkg/input/json_record.go: Get, All"]}
{"id": "C65", "title": "Float parser applies the separator and ignored characters", "statement": "The float parser returns the number written by the text after dropping the ignored characters and replacing every decimal separator with a point, and nothing else is changed.", "quantifier": "all texts, ignored characters and separators of one character", "why_tests_cant": "Infinite domain.", "anchors": ["pkg/parser/float.go: Parse"]}
{"id": "C66", "title": "XML values have the type of their parser", "statement": "A primitive property of an XML record that has a value has one of the type of its configured parser, and an expression that selects nodes gives exactly their XML text and requires a string parser.", "quantifier": "all property configurations, documents and expression results", "why_tests_cant": "Infinite domain of documents and configurations.", "anchors": ["pkg/input/xml_record.go: getAllValues, handleNodeIteratorValue, handleStringValue, handleNumericValue, handleBoolValue"]}
{"id": "C67", "title": "Accepted parser configurations are complete", "statement": "A parser configuration is accepted exactly when every split parser names an existing parser, every boolean parser has texts for both values and every float parser has a decimal separator; a split parser of an accepted configuration always finds the parser of its pieces.", "quantifier": "all parser configurations", "why_tests_cant": "Infinite domain of configurations.", "anchors": ["pkg/parser/split_config.go: Validate", "pkg/parser/boolean_config.go: Validate", "pkg/parser/float_config.go: Validate", "pkg/parser/split.go: Parse"]}
{"id": "C68", "title": "A list request, end to end", "statement": "A GET request to a list route answers 200 with the JSON text of the array of exactly the records satisfying every condition given in the path or the query string (of several on the same property of the same index one counts, see C45), in order, from the asked offset on and at most the asked limit; or an error status.", "quantifier": "all configurations of a list output without relationships, all data, route paths, requests and orders of visiting maps", "why_tests_cant": "Quantifies over all data, requests and configurations.", "anchors": ["pkg/service/http.go: getHandlerFunc, getParams", "pkg/output/json_array.go: Handle"]}
{"id": "C69", "title": "An object request, end to end", "statement": "A GET request to an object route answers 200 with the JSON text of the first record satisfying every condition (of several on the same property of the same index one counts, see C45), or 404 when there is none.", "quantifier": "all configurations of an object output without relationships, all data, route paths, requests and orders of visiting maps", "why_tests_cant": "Quantifies over all data, requests and configurations.", "anchors": ["pkg/service/http.go: getHandlerFunc, getParams", "pkg/output/json_object.go: Handle"]}
{"id": "C70", "title": "Routes that cannot be served are refused at startup", "statement": "A route with a placeholder that is not a parameter of its output, or whose parser produces lists or objects, makes the startup fail; every parameter of an accepted route is one of its output with a parser of primitive values.", "quantifier": "all route paths, outputs and parsers", "why_tests_cant": "Unbounded configurations.", "anchors": ["pkg/service/http.go: NewHttp, createPathRegexp", "pkg/output/json_array.go: HasParameter, GetParameterParser", "pkg/output/json_object.go: HasParameter, GetParameterParser"]}
{"id": "C71", "title": "Path placeholders accept what their parser reads", "statement": "Every text that the parser of a parameter reads as a value can be given in a route path for that parameter, and a text that the path accepts is readable by the parser.", "quantifier": "all parsers and texts", "why_tests_cant": "Infinite domain of texts and configurations.", "anchors": ["pkg/parser/integer.go: GetRegexpPattern, Parse", "pkg/parser/boolean.go: GetRegexpPattern, Parse"]}
{"id": "C72", "title": "Acceptance does not depend on map order", "statement": "Whether a configuration is accepted, and the resulting configuration, do not depend on the order in which the maps of parsers, inputs, indexes, services and outputs are visited.", "quantifier": "all configurations and orders of visiting the maps of components", "why_tests_cant": "Go randomizes the order of maps.", "anchors": ["pkg/config/config.go: Validate"]}
{"id": "C73", "title": "Accepted list outputs have usable paging", "statement": "In an accepted configuration every list output has a default limit of at least one and at most its maximum, and the limit, the offset and the filters have different parameter names.", "quantifier": "all configurations", "why_tests_cant": "Unbounded configurations.", "anchors": ["pkg/output/json_array_config.go: Validate"]}
{"id": "C74", "title": "Loading a configuration never panics", "statement": "Loading a configuration gives a configuration or an error message, never a panic, whatever the paths in it.", "quantifier": "all configurations and file systems", "why_tests_cant": "Unbounded configurations and file system states.", "anchors": ["pkg/config/config.go: Validate", "pkg/input/csv_config.go: Validate", "pkg/input/json_config.go: Validate", "pkg/input/xml_config.go: Validate", "pkg/service/http_config.go: Validate"]}
{"id": "C75", "title": "Nothing is listed twice in an accepted configuration", "statement": "An accepted configuration has no column, property, sorted or matched property of a relationship at any depth, or route path that is listed twice in its component.", "quantifier": "all configurations", "why_tests_cant": "Unbounded configurations and depths.", "anchors": ["pkg/input/csv_config.go: Validate", "pkg/input/xml_config.go: Validate", "pkg/index/map_config.go: Validate", "pkg/output/relationship/config.go: Validate", "pkg/service/http_config.go: Validate"]}
{"id": "C76", "title": "A configuration is accepted exactly when it is well-formed", "statement": "A configuration is accepted exactly when names are given, not empty and not repeated, every reference leads to a component that can be used there, every required setting is given, the files exist, the expressions compile and the limits fit; anything else is refused.", "quantifier": "all configurations and file systems", "why_tests_cant": "Unbounded configurations, with nested properties and relationships of any depth.", "anchors": ["pkg/config/config.go: Validate", "pkg/parser/*_config.go: Validate", "pkg/input/*_config.go: Validate", "pkg/index/*_config.go: Validate", "pkg/output/*_config.go: Validate", "pkg/output/relationship/config.go: Validate", "pkg/service/http_config.go: Validate"]}
{"id": "C77", "title": "Settings keep their values and get the documented defaults", "statement": "In an accepted configuration every component has the settings that were given for it, at any depth, and the documented default for each one that was not given; nothing else is added, dropped or changed.", "quantifier": "all configurations", "why_tests_cant": "Unbounded configurations, with nested properties and relationships of any depth.", "anchors": ["pkg/config/config.go: addDefaultConfigs, Validate", "pkg/input/*_config.go: Validate", "pkg/index/*_config.go: Validate", "pkg/output/*_config.go: Validate", "pkg/service/http_config.go: Validate", "docs/schema"]}
{"id": "C78", "title": "What runs is what is configured", "statement": "When the program starts with an accepted configuration file, every parser, input, index, output and service that runs is the one of the file with that name, with the settings of the file (or the documented defaults), connected to the others by the names in the file, and each service has exactly the declared routes in the declared order.", "quantifier": "every parsed configuration file, every order of map iteration, every outcome of opening files and listening", "why_tests_cant": "Tests start a handful of configurations; a swapped component shows only for particular combinations of names and orders.", "anchors": ["cmd/main.go: main", "pkg/parser/parser.go: NewFromConfigs", "pkg/input/input.go: NewFromConfigs", "pkg/index/index.go: NewFromConfigs", "pkg/output/output.go: NewFromConfigs", "pkg/service/service.go: NewFromConfigs"]}
{"id": "C79", "title": "From the configuration file to the response", "statement": "In a running program, a GET request to a route of a list output is answered with status 200 and the JSON array of exactly the records of the output's input that satisfy what the path and the query string ask of the indexes of the declared parameters (equality for map indexes and full scans; of several conditions on the same property of the same index one counts, see C45), in the order of the file, from the asked offset on and at most the asked limit; a route of an object output is answered with the first such record, or 404.", "quantifier": "every accepted configuration, every table of records, every request", "why_tests_cant": "Any finite set of requests on any finite set of files misses combinations of indexes, parameters, parsers and data.", "anchors": ["pkg/config/config.go: Validate", "pkg/service/http.go: getHandlerFunc", "pkg/output/json_array.go: Handle", "pkg/output/json_object.go: Handle", "pkg/index/map.go: GetRecordPositions", "pkg/index/noop.go: GetRecordPositions"]}
{"id": "C80", "title": "Indexes on disk find what they are documented to find", "statement": "When the program starts and its wildcard, SQLite and full-text indexes are opened - built on a fresh disk, or found as earlier starts left them, including SQLite and FTS5 builds killed at any statement - every search by a wildcard index gives exactly the records whose property contains the text (up to case if so configured) every search by a SQLite index exactly the records whose property is equal for SQLite, and every search by a full-text index exactly the records that match, in the order of the input.", "quantifier": "every accepted configuration, every history of starts in which the indexes of that name were this one on this input, every table of records, every filter", "why_tests_cant": "The state on disk depends on unbounded histories of starts and crashes.", "anchors": ["pkg/index/index.go: NewFromConfig", "pkg/index/wildcard.go: NewWildcard, GetRecordPositions", "pkg/index/sqlite.go: NewSqlite, GetRecordPositions", "pkg/index/fts5.go: NewFts5, GetRecordPositions"]}
{"id": "C81", "title": "Full-text search finds exactly the matching records", "statement": "A full-text index answers a search with exactly the positions of the records that match the expression, each once; a request for another input, with other filters than one called match, or with an expression that is not valid is rejected.", "quantifier": "every data set, every expression, every history of starts killed at any statement", "why_tests_cant": "Unbounded data, expressions and histories.", "anchors": ["pkg/index/fts5.go: NewFts5, createIndex, GetRecordPositions"]}
{"id": "C82", "title": "CSV files are read as they are written", "statement": "A CSV file written in the usual way (RFC 4180: cells as they are, or between quotes with their quotes doubled; lines that end in LF or CRLF; empty lines anywhere) is read back as exactly its rows and its cells, in order, by a scan and by fetching; a CRLF inside a quoted cell is read as LF and everything else verbatim. A misplaced or unclosed quote ends the scan with an error after the rows before it, and is never read as other cells.", "quantifier": "every delimiter, every table of cells of any bytes, every way to write it, every schedule of reads from the file", "why_tests_cant": "Unbounded files, with any bytes in their cells and any boundary between the blocks that are read.", "anchors": ["pkg/input/csv.go: open, IterateAll, Get", "pkg/input/csv_config.go: Validate", "pkg/input/csv_record.go"]}
{"id": "C83", "title": "From the bytes of a CSV file to the response", "statement": "In a running program, a GET request to a route of a list output without relationships on a well written CSV file, whose parameters are on columns (or on dotted paths into their values) that are searched by map indexes or full scans, is answered with exactly the objects of the rows of the file (each cell read by the parser of its column, columns declared or named by the first row) that have the given values (of several on the same property of the same index one counts, see C45), in the order of the rows, from the asked offset on and at most the asked limit; a route of an object output with the first such object, or 404. The answer does not depend on how the file is read ahead or what other requests did with the shared reader.", "quantifier": "every accepted configuration, every content of the files, every request, every schedule of reads and every state of the shared reader", "why_tests_cant": "Any finite set of files and requests misses combinations of cells, quoting, delimiters, parsers, indexes and parameters.", "anchors": ["pkg/input/csv.go: NewCsv, open, autodetectColumns, IterateAll, Get", "pkg/input/csv_record.go: All, Get", "pkg/input/input.go: NewFromConfig", "pkg/output/json_array.go: Handle", "pkg/output/json_object.go: Handle", "pkg/service/http.go: getHandlerFunc"]}
{"id": "C84", "title": "Responses are JSON texts of the data", "statement": "Every response of a service is the JSON text (RFC 8259) of the data and a newline, with status 200, or the JSON text of an object with only an error message (that no route matches, that there is no such record, or the message of the failure), with status 404 or 500, or an empty body if the data has a number that JSON cannot write. The text stands for the data as long as its texts are valid UTF-8 (what is not is written as U+FFFD), and its bytes depend only on the data, not on the order in which maps are visited.", "quantifier": "every response data of any shape and size, every configuration of routes, every request", "why_tests_cant": "Unbounded values; escaping depends on every byte of every text.", "anchors": ["pkg/output/json_array.go: Handle", "pkg/output/json_object.go: Handle", "pkg/service/http.go: getHandlerFunc, sendErrorResponse"]}
{"id": "C85", "title": "JSON files are read as they are written", "statement": "A JSON file made of objects, written in any way that RFC 8259 allows, is read as exactly these objects, in order, by a scan and by fetching (the last member counts where a key is repeated); a scan without an error has only read JSON texts. The JSON parser reads exactly the JSON texts; what rodb writes is read back by rodb as the same data.", "quantifier": "every sequence of objects nested at most 10000 times, every way to write it, every content of the file", "why_tests_cant": "Unbounded files, with any nesting, spacing and escapes.", "anchors": ["pkg/input/json.go: IterateAll, Get", "pkg/input/json_record.go: NewJson", "pkg/parser/json.go: Parse"]}
{"id": "C86", "title": "From the bytes of a JSON file to the bytes of the response", "statement": "In a running program, a GET request to a route of a list output without relationships on a JSON file, whose parameters are on dotted paths that are searched by map indexes or full scans, is answered with the JSON text of the array of exactly the objects of the file that have the given values at these paths (of several on the same property of the same index one counts, see C45), in the order of the file, from the asked offset on and at most the asked limit; a route of an object output with the first such object, or 404.", "quantifier": "every accepted configuration, every content of the files, every request", "why_tests_cant": "Any finite set of files and requests misses combinations of objects, paths, spellings, indexes and parameters.", "anchors": ["pkg/input/json.go: NewJson, IterateAll, Get", "pkg/input/json_record.go: All, Get", "pkg/output/json_array.go: Handle", "pkg/output/json_object.go: Handle", "pkg/service/http.go: getHandlerFunc"]}
{"id": "C87", "title": "From the bytes of all the files to responses with relationships", "statement": "In a running program whose inputs are CSV, JSON and XML files, a GET request to a route of a list output is answered with the JSON text of the array of exactly the objects that have the given values (of several on the same property of the same index one counts, see C45), each shown with its relationships to any depth: for every relationship the objects of the other file that have, at the child paths, the values of the parent's properties, in the order of that file or sorted by the declared criteria, at most the declared number of them (or the first one, or null if there is none); a route of an object output with the first such object, or 404.", "quantifier": "every accepted configuration on CSV, JSON and XML files with map indexes and full scans, every content of the files, every tree of relationships that fits the data, every request", "why_tests_cant": "Any finite set of files and requests misses combinations of data, nesting, sorting, limits and indexes.", "anchors": ["pkg/output/json_array.go: Handle", "pkg/output/json_object.go: Handle", "pkg/output/json_common.go: loadRelationships, getRelationshipFiltersPerIndex, getFilteredRecordPositionsPerIndex", "pkg/input/csv.go", "pkg/input/json.go", "pkg/service/http.go: getHandlerFunc"]}
{"id": "C88", "title": "Changed input files are noticed", "statement": "With dieOnInputChange (the default) the program never goes on serving changed data: as long as it runs and no notice of a write is waiting, scans and fetches read what the file contained when the input was opened; after a write to the file a notice is waiting or the program has ended, and in every schedule it ends before all the events that were there with the notice are taken. Nothing but a write to an input file ends it. Without dieOnInputChange it never ends by itself, and it warns. A missing input file stops the start.", "quantifier": "every sequence of writes, replacements, other changes and notices, in any interleaving with the program's own steps, before and after the input is opened", "why_tests_cant": "Which interleaving of writes, notifications and reads happens is decided by the operating system; a test sees one.", "anchors": ["pkg/util/fsnotify.go: StartFilesystemWatchProcess", "pkg/input/csv.go: NewCsv, Get, IterateAll", "pkg/input/json.go: NewJson, Get, IterateAll", "pkg/input/xml.go: NewXml, Get, IterateAll"]}
{"id": "C89", "title": "From the bytes of all the files to responses, with indexes of every kind", "statement": "In a running program whose inputs are CSV, JSON and XML files and whose wildcard files and SQLite databases did not exist or were left by earlier starts, in which the process may have died after any number of statements, a GET request to a route of a list output is answered with the JSON text of the array of exactly the objects that the asked indexes find (of several on the same property of the same index one counts, see C45): those whose text contains the given one for wildcard indexes (whatever its case, if so configured), those with a value that is equal under the collation for SQLite indexes, those that match the expression for full-text indexes, those with an equal value for the others; each with its relationships, whose objects are found likewise. A route of an object output is answered with the first such object, or 404.", "quantifier": "every accepted configuration on CSV, JSON and XML files, with any number of indexes of all kinds; every content of the files; every history of starts and crashes of the databases; every request", "why_tests_cant": "Any finite set of files, databases and requests misses combinations of data, indexes, histories, parameters and relationships.", "anchors": ["pkg/index/wildcard.go: NewWildcard, GetRecordPositions", "pkg/index/sqlite.go: NewSqlite, GetRecordPositions", "pkg/index/fts5.go: NewFts5, GetRecordPositions", "pkg/output/json_array.go: Handle", "pkg/output/json_object.go: Handle", "pkg/output/json_common.go", "pkg/input/csv.go", "pkg/input/json.go", "pkg/service/http.go: getHandlerFunc"]}
{"id": "C90", "title": "Requests that cannot be read are refused", "statement": "In a running program, a request to a route of a list output whose limit is given but is not a positive 64-bit number, whose offset is given but is not a 64-bit number from 0 on, or that gives a parameter, in the path or in the query string, a text that the parser of the parameter does not accept, is answered with status 500 and a JSON object with an error, never with data; so is a request to an object output with such a parameter, where a missing parameter is the empty text. All other list requests have a meaning: conditions, a limit and an offset.", "quantifier": "every accepted configuration, every content of the files, every request", "why_tests_cant": "There are unboundedly many texts and combinations of parameters, and several may be wrong at the same time, met in any order.", "anchors": ["pkg/output/json_array.go: Handle, getLimit, getOffset, getFiltersPerIndex", "pkg/output/json_object.go: Handle, getRouteFiltersPerIndex", "pkg/service/http.go: getHandlerFunc, sendErrorResponse", "pkg/parser: Parse"]}
{"id": "C91", "title": "Environment variables in the configuration file", "statement": "In the text of the configuration file every `${NAME}` and every `$NAME` that is not followed by a character of names is replaced by the value of the environment variable, which is not expanded again, and all the other text is kept as it is; a file without `$` is taken verbatim.", "quantifier": "every text of the configuration file, every environment", "why_tests_cant": "There are unboundedly many texts and values, and values may contain anything, including other references.", "anchors": ["pkg/config/config.go: NewConfigFromYamlFile"]}
{"id": "C92", "title": "What the configuration file may say", "statement": "The YAML document of the configuration is read as a configuration exactly if it describes it as documented: the five lists of components, each component a mapping with a known type, the settings of this type, each at most once and with a value of the right kind, in any order, left-out settings having their empty value. Misspelled settings, settings given twice, unknown types and values of other kinds are refused. Every configuration can be written as a document and is read back as it was.", "quantifier": "every YAML document, every configuration", "why_tests_cant": "Documents are nested without bound, and each of the many settings can be missing, misspelled, repeated or of another kind.", "anchors": ["pkg/config/config.go: NewConfigFromYamlFile", "pkg/config/parser.go, input.go, index.go, output.go, service.go: UnmarshalYAML", "pkg/util/config.go: GetTypeFromConfigUnmarshaler", "pkg/*/*_config.go: yaml tags"]}
{"id": "C93", "title": "From the configuration file to the running program", "statement": "A configuration file is accepted exactly if, with the values of the environment variables in it, it is a YAML document that describes a well-formed configuration; a program that runs, runs with what its file describes. Any other file is refused with an error, without a panic.", "quantifier": "every content of the configuration file, every environment, every state of the file system", "why_tests_cant": "The set of files is unbounded and the claim is an equivalence: no refused file is fine, no accepted one is wrong.", "anchors": ["pkg/config/config.go: NewConfigFromYamlFile", "cmd/main.go: main"]}
{"id": "C94", "title": "The exit status tells whether a server failed", "statement": "When the process ends after its services were up, its exit status is 0 if all the servers were shut down, and 1 if one of them stopped by an error of its own; there is no other status.", "quantifier": "every number of services and servers, every order in which they are visited, every interleaving of requests, failures, signals and shutdown steps", "why_tests_cant": "Schedules.", "anchors": ["cmd/main.go: main", "pkg/service/service.go: Wait, Close", "pkg/service/http.go: NewHttp, Wait, Close"]}
{"id": "C95", "title": "The failure of a server ends the program", "statement": "If a server stops by an error of its own, for example because its certificate cannot be read, the program reports it and ends with status 1.", "quantifier": "every number of services and servers, every order in which they are visited, every interleaving of requests, failures, signals and shutdown steps", "why_tests_cant": "Schedules; and the claim is about what eventually happens.", "anchors": ["cmd/main.go: main", "pkg/service/service.go: Wait", "pkg/service/http.go: NewHttp, Wait"]}
{"id": "C96", "title": "A signal ends the program", "statement": "After an interrupt signal the program ends by itself, within a bounded number of its own steps, when the requests that are being answered are answered.", "quantifier": "every number of services and servers, every order in which they are visited, every interleaving of requests, failures, signals and shutdown steps", "why_tests_cant": "Schedules; and the claim is about what eventually happens.", "anchors": ["cmd/main.go: main", "pkg/service/service.go: Wait, Close", "pkg/service/http.go: Wait, Close"]}
{"id": "C97", "title": "Following the pages of a list", "statement": "A client that asks for the pages of a list over files with map and default indexes one after the other, each request with the same conditions (no two on the same property of the same index), the page size as limit and the page size times the number of the page as offset, gets every object of the file that satisfies the conditions exactly once, in the order of the file, in answers of at most the page size.", "quantifier": "every configuration, every content of the CSV, JSON and XML files, every page size up to the maximum, every number of pages, every conditions", "why_tests_cant": "Unbounded numbers of objects and pages; an object lost or repeated at a page boundary depends on both.", "anchors": ["pkg/output/json_array.go: Handle, getLimit, getOffset", "pkg/service/http.go: handler", "pkg/index/default.go, map.go, noop.go"]}
{"id": "C98", "title": "Scanning an XML file", "statement": "Scanning an XML file that is a well-formed document, with a record expression that selects elements anywhere by their name and attributes as //item does (see C103 for others), gives the elements that the expression looks for, each once, in the order of the document, at increasing positions inside of the file; elements inside of another such element belong to it. If something in the file is not XML, the scan ends with an error, not as if the file ended there.", "quantifier": "every content of the file, every expression that looks for elements anywhere in the document", "why_tests_cant": "Documents of unbounded size and depth.", "anchors": ["pkg/input/xml.go: IterateAll"]}
{"id": "C99", "title": "An XML record is found again at its position", "statement": "Fetching a record of an XML file by the position at which a scan gave it gives the same record, whatever was fetched before.", "quantifier": "every document, every record expression, every history of fetches", "why_tests_cant": "Histories: the parser keeps its state from one fetch to the next.", "anchors": ["pkg/input/xml.go: Get, IterateAll"]}
{"id": "C100", "title": "From the bytes of an XML file to the response", "statement": "A request to a list or object route on an XML file is answered with the JSON text of the records of the document, each with its properties: texts parsed by the declared parsers, numbers and booleans of expressions, nested objects and arrays, null where nothing is found; exactly the records that have the asked values (of several on the same property of the same index one counts, see C45), in the order of the document, in the asked window.", "quantifier": "every configuration, every XML document, every request", "why_tests_cant": "Documents, property trees and requests are unbounded; and fetches depend on the fetches before.", "anchors": ["pkg/input/xml.go: NewXml, Get, IterateAll", "pkg/input/xml_record.go: All, Get", "pkg/output/json_array.go: Handle", "pkg/output/json_object.go: Handle", "pkg/service/http.go: getHandlerFunc"]}
{"id": "C101", "title": "XML files are read as they are written", "statement": "However a document is written (entities and character references, CDATA sections, comments, processing instructions, a declaration and a document type, either quote around attributes, empty elements, blanks in tags, any line ends), a scan of the file for elements anywhere with a name and attributes gives the elements of the document that are looked for, with their attributes, texts and children, each once and in order. Every tree of elements, attributes and texts can be written.", "quantifier": "every tree of elements, attributes and texts, every way to write it, every expression that looks for elements anywhere in the document", "why_tests_cant": "Documents of unbounded size and depth with many ways to write each of them.", "anchors": ["pkg/input/xml.go: IterateAll"]}
{"id": "C102", "title": "A truncated XML file is not read as a complete one", "statement": "If an XML file ends too early, for example because it is still being copied, a scan gives records of the complete file and then an error; it does not end as if the file were complete.", "quantifier": "every document, every way to write it, every place where it is cut, every record expression", "why_tests_cant": "Every place in documents of unbounded size, each of which may be inside of any construct of XML.", "anchors": ["pkg/input/xml.go: IterateAll"]}
{"id": "C103", "title": "The records of an XML file are what the record expression selects", "statement": "A scan of an XML file gives the nodes that the record expression selects in the document, each once, in the order of the document; nodes inside of another such node belong to it.", "quantifier": "every document, every record expression", "why_tests_cant": "Documents of unbounded size and depth; the program decides at each start tag from the document so far.", "anchors": ["pkg/input/xml.go: IterateAll, NewXml", "docs/schema/inputs/xml.yaml: recordXpath"]}
{"id": "C104", "title": "How a truncated JSON file is read", "statement": "If a JSON file ends too early, for example because it is still being copied, a scan gives the records of its complete objects, the same as the complete file begins with. Then it ends if the cut is between two objects, and gives an error if the cut is inside of an object.", "quantifier": "every sequence of objects, every way to write it, every place where it is cut", "why_tests_cant": "Every place in texts of unbounded size, each of which may be inside of any construct of JSON.", "anchors": ["pkg/input/json.go: IterateAll"]}
{"id": "C105", "title": "The complete rows of a CSV file do not depend on what follows", "statement": "If a CSV file is cut anywhere, or more is written at its end, the scans of both give the same records at the same positions, until the shorter one has at most one more record or error: the row in which it was cut. The complete rows of a well written file are always among the common ones.", "quantifier": "every file, well written or not, every place where it is cut, every delimiter, header or not, every way the file is delivered in pieces", "why_tests_cant": "Every place in texts of unbounded size; a cut may be inside of quotes, which changes the meaning of what follows.", "anchors": ["pkg/input/csv.go: IterateAll, NewCsv"]}
{"id": "C106", "title": "The URL of a request is read as it is written", "statement": "However the path and the parameters of a request are written in its URL (percent-encoding of any characters with digits of either case, + for spaces, superfluous &, parameters without =), the request has this path, and every parameter has the first value given for it. A request whose URL cannot be read is refused.", "quantifier": "every path, every list of parameters with any bytes as values, every way to write them; every text as URL", "why_tests_cant": "Paths and values of unbounded length with many ways to write each byte.", "anchors": ["pkg/service/http.go: getParams, getMatchingRoute"]}
{"id": "C107", "title": "A search in a damaged wildcard index ends", "statement": "If the program starts with an existing file of a wildcard index, every search in it ends, with an answer or an error that is reported, and does not stop the program, whatever the rest of the file contains.", "quantifier": "every content of the file behind a valid header, every searched text", "why_tests_cant": "A file may contain any bytes, and links that form any graph: only some of them make a search follow links for ever.", "anchors": ["pkg/index/wildcard/node.go: GetTreeNode, FindChildByPrefix, GetSequence", "pkg/index/wildcard/position.go: GetPositionLinkedList, Iterate", "pkg/index/wildcard/stream.go: Get"]}
{"id": "C108", "title": "The program as a whole: from its files and a URL to the bytes of the response", "statement": "Whoever writes a configuration file and data files, starts the program and sends it a GET request gets the JSON text that the documentation promises: for a list output the objects of the file that match the parameters in the URL, in the order of the file, the asked page of them, each with its relationships; for an object output the first one, or 404. Nothing in between, neither the order of maps, nor the kind of the indexes and inputs, nor the way the URL and the files are written, changes this.", "quantifier": "every configuration file with any environment variables, all contents of CSV, JSON and XML files, indexes of every kind, every way to write the URL, every order of the maps", "why_tests_cant": "It is about every configuration, every content of the files and every request at once.", "anchors": ["cmd/main.go: main", "pkg/config/config.go: NewConfigFromYamlFile", "pkg/service/http.go: getHandlerFunc", "pkg/output/json_array.go: Handle", "pkg/output/json_object.go: Handle"]}
{"id": "C109", "title": "Every request is answered", "statement": "A running program answers every request: with status 400 if its URL cannot be read, 404 if no route suits it or there is no such object, 500 with a JSON error if a parameter cannot be read by its parser or the asked page makes no sense, and otherwise with 200. In particular a request that makes sense never fails, and none makes the program panic or hang.", "quantifier": "every configuration and content of the files, every method, URL, content type and body of a request", "why_tests_cant": "Any text may be sent to the program, and whether it panics depends on the data of all the inputs, indexes and relationships together.", "anchors": ["pkg/service/http.go: getHandlerFunc, getParams, sendErrorResponse", "pkg/output/json_array.go: Handle", "pkg/output/json_object.go: Handle"]}
{"id": "C110", "title": "Requests do not disturb each other", "statement": "The response to a request is the one the program gives to this request alone, whatever other requests have been handled before it and are being handled at the same time, however their steps are interleaved. No request blocks the others for ever: whatever has happened, all requests can still be brought to an end.", "quantifier": "every configuration and content of the files, any number of requests of any kind that arrive at any times, every interleaving of the steps of their handlers, every state of the shared readers", "why_tests_cant": "The number of interleavings is unbounded, and a mistake shows only for a few of them.", "anchors": ["pkg/input/csv.go: Get", "pkg/input/json.go: Get", "pkg/output/json_array.go: Handle", "pkg/output/json_object.go: Handle", "pkg/output/json_common.go: loadRelationships, getDataFromPosition", "pkg/service/http.go: getHandlerFunc"]}
{"id": "C111", "title": "A route serves exactly the request paths that its path stands for as a regular expression", "statement": "The path of a route is a regular expression in Go's syntax, in which {name} stands for the texts that the pattern of the parser of this parameter matches. A route with such a path is created, and it serves exactly the request paths that the expression matches: the whole request path if the expression has one alternative; otherwise the first alternative at the start of the request path, the last one at its end and the others anywhere.", "quantifier": "every path written with characters, quoted characters, dots, brackets, parentheses, repetitions, alternatives and placeholders, nested to any depth; every request path", "why_tests_cant": "Expressions of unbounded size and depth, and request paths of unbounded length.", "anchors": ["pkg/service/http.go: createPathRegexp, getMatchingRoute"]}
{"id": "C112", "title": "The program can be stopped and started again, and its indexes can share databases", "statement": "Whatever number of times the program was started before on the same machine, on these or other data files, successfully or not, or was killed while it started, a start that succeeds gives services that answer from the objects in the data files, as in C108. Several SQLite and FTS5 indexes may use one database if their names differ in more than the case of letters. Starting once more changes nothing on the machine and gives the same services; neither does the order in which the configuration's maps are visited change what is on the machine.", "quantifier": "every configuration whose indexes have files and tables of their own, every content of the files, every number of earlier starts, each with any content of the files and killed at any point or not at all, every order of visiting maps, every request", "why_tests_cant": "Histories of unboundedly many starts, with every iteration order of Go's maps at each, and files of unbounded size.", "anchors": ["cmd/main.go: main", "pkg/index/index.go: NewFromConfig, NewFromConfigs", "pkg/index/wildcard.go: NewWildcard", "pkg/index/sqlite.go: NewSqlite", "pkg/index/fts5.go: NewFts5"]}
{"id": "C113", "title": "Searches at the same time in one SQLite or FTS5 index do not disturb each other", "statement": "However many searches of a SQLite or FTS5 index are made at the same time, in whatever order their statements are executed, and whether or not the iterators they return are read to their ends: each of them answers the positions of exactly the records that satisfy its filters, does not fail, and ends after a bounded number of its own steps. When all of them have ended at most two connections to the database stay open.", "quantifier": "every index and every content of its input, every number of searches with any filters, every interleaving of their steps, every choice of a free connection, every iterator read to its end or in part or not at all", "why_tests_cant": "Schedules of unboundedly many searches, with connections that the pool of database/sql gives to any of them. A test makes one search after the other and reads each to its end.", "anchors": ["pkg/sqlite/open.go: Open", "pkg/sqlite/sanitize.go: SanitizeIdentifier", "pkg/index/sqlite.go: Sqlite.GetRecordPositions", "pkg/index/fts5.go: Fts5.GetRecordPositions"]}
{"id": "C114", "title": "Starting again after the data files have changed", "statement": "When the program is started on a machine where it was started before, and the data file of an input has changed since a wildcard, SQLite or full-text index was built for it, the start fails rather than answering requests from an index of the old data; and no later start, with any data files, changes what the indexes have stored.", "quantifier": "for all configurations whose indexes have places of their own, all libraries, all data files at each of the starts, all sequences of starts before and after the one that built the indexes, and all orders in which the maps of the configuration are walked", "why_tests_cant": "It concerns sequences of starts with different data files; tests start an index at most twice, with one altered metadata field.", "anchors": ["pkg/index/wildcard/metadata.go: Metadata.AssertValid", "pkg/index/sqlite/metadata.go: Metadata.AssertValid", "pkg/index/wildcard.go: NewWildcard", "pkg/index/sqlite.go: NewSqlite", "pkg/index/fts5.go: NewFts5", "cmd/main.go: main"]}
{"id": "C115", "title": "Errors while a request is answered", "statement": "If, while a request is answered, searches of indexes fail, at once or after some positions, or records cannot be read from an input, then the client gets the response it would get if nothing had failed, or one with the status 500 (Internal Server Error): never a shorter list, a missing relationship or 'not found' with status 200 or 404.", "quantifier": "for all configurations of outputs and services, all inputs and indexes, all choices of the searches and records that fail and of the points where they fail, and all requests", "why_tests_cant": "It concerns every point at which a read can fail in every combination of indexes, pages and nested relationships; tests inject at most one error.", "anchors": ["pkg/output/json_array.go: JsonArray.Handle", "pkg/output/json_object.go: JsonObject.Handle", "pkg/output/json_common.go: getRelationshipFiltersPerIndex, loadRelationships", "pkg/input/record/join.go: JoinPositionIterators", "pkg/service/http.go: Http.getHandlerFunc"]}
{"id": "C116", "title": "Starts of the program that are killed anywhere", "statement": "However earlier starts of the program on a machine were killed, also while the file of a wildcard index is completed, every response of a program that has started is the right one (what the data files say, as in C108), or has the status 500.", "quantifier": "for all accepted configuration files whose indexes have places of their own, all libraries, data files and machines, all sequences of earlier starts, each with its own data files, successful, failed or killed at any byte of what it writes, all orders in which the maps of the configuration are walked, and all requests", "why_tests_cant": "It concerns every byte at which a process can die, in every sequence of starts, and all later requests.", "anchors": ["pkg/index/wildcard.go: NewWildcard, Wildcard.createIndex", "pkg/index/wildcard/metadata.go: Metadata.AssertValid", "cmd/main.go: main", "pkg/output/json_array.go: JsonArray.Handle", "pkg/service/http.go: Http.getHandlerFunc"]}
{"id": "C117", "title": "Indexes that SQLite cannot build", "statement": "A SQLite or full-text index that SQLite cannot build makes the program fail when it starts, instead of being served, however often it was started before and wherever these starts were killed. On an empty database such an index is built exactly if it has properties, their names differ in more than the case of letters (and, for a full-text index, are not names that its table uses itself), the collations and the tokenizer exist, there are at most 31 lengths of prefixes, from 1 to 999, and all records of the input can be read and have values that SQLite can store.", "quantifier": "for all accepted declarations of SQLite and full-text indexes with names without NUL, all inputs and all libraries; and for all accepted configurations with several indexes that may share databases, all machines, data files, orders in which the indexes are opened, and histories of earlier starts", "why_tests_cant": "It concerns every declaration that the validation of the configuration accepts, and every input.", "anchors": ["pkg/index/sqlite.go: NewSqlite, Sqlite.createIndex", "pkg/index/fts5.go: NewFts5, Fts5.createIndex", "pkg/index/sqlite_config.go: SqliteConfig.Validate", "pkg/index/fts5_config.go: Fts5Config.Validate", "cmd/main.go: main"]}
{"id": "C118", "title": "From the command line to the servers", "statement": "`rodb` reads its command line by a fixed grammar (`--config v`, `--config=v`, `-c v`, `-c=v`, `-cv`, the same for loglevel; the last value counts; the defaults are info and rodb.yaml); it exits with status 2 for any other command line and with 1 for a level that is no level or a file that describes no valid configuration, in each case without having served anything; and when it is up it runs what that file describes and serves exactly the addresses that its services ask for, each once and with the routes of its service.", "quantifier": "all lists of arguments, all configuration files, all machines (which addresses can be bound, given those already bound), all orders of the maps of the configuration", "why_tests_cant": "the command lines, files and machines are unbounded, and a start binds addresses one after the other in an order that is not fixed", "anchors": ["cmd/main.go: main", "pkg/service/service.go: NewFromConfigs", "pkg/service/http.go: NewHttp, createServer"]}
{"id": "C119", "title": "Answers from indexes that give their matches in any order", "statement": "Whatever order SQLite gives the rows in (the program asks for none), a list request shows, from the asked offset on and at most the asked limit of them, records that satisfy all that is asked of the indexes, none of them twice, and leaves none out; an object request answers with such a record, and with 'not found' only if there is none.", "quantifier": "all data, configurations, requests, orders of the maps, orders in which SQLite gives the rows of each statement, and databases left by killed starts", "why_tests_cant": "The order of the rows of a statement without ORDER BY is SQLite's choice and can change with its version, the statistics and the query; tests see one order.", "anchors": ["pkg/input/record/join.go: JoinPositionIterators", "pkg/index/sqlite.go: GetRecordPositions", "pkg/index/fts5.go: GetRecordPositions", "pkg/output/json_array.go: Handle", "pkg/output/json_object.go: Handle"]}
{"id": "C120", "title": "Everything that was opened is closed when the program ends", "statement": "When the program ends after a signal, it closes everything its components have opened: the databases and files of the indexes, then, for each input, the watch, the watcher and the file; everything once, whatever the order of its maps, and a call that fails keeps nothing else from being closed.", "quantifier": "all configurations, orders of the maps of components, and sets of closing calls that fail", "why_tests_cant": "Which calls fail and in which order the maps are visited differs from run to run; tests close single components that close without an error.", "anchors": ["cmd/main.go: main", "pkg/input/input.go: Close", "pkg/index/index.go: Close", "pkg/output/output.go: Close", "pkg/input/csv.go: Close", "pkg/input/json.go: Close", "pkg/input/xml.go: Close", "pkg/index/sqlite.go: Close", "pkg/index/fts5.go: Close", "pkg/index/wildcard.go: Close"]}
{"id": "C121", "title": "Messages about the progress of indexing", "statement": "While an index is built from a data file, the log tells for records that are being read their position and a percentage from 0 to 100; neither goes back, messages are more than a second apart, and whenever a record is read there was a message at most a second before. Without a known size, or for an empty file, there are none.", "quantifier": "all sizes, all sequences of times and positions of records in a file, and every rounding of floating-point numbers that IEEE 754 allows", "why_tests_cant": "The times at which records are read differ from run to run, and the percentage goes through floating-point numbers for any size of file.", "anchors": ["pkg/util/progress.go: TrackProgress", "pkg/index/map.go: addValuesToIndex", "pkg/index/wildcard.go: createIndex"]}
{"id": "C122", "title": "XPath expressions select what they say", "statement": "A path in the configuration of an XML input (steps with names or *, from the node, from its root or from anywhere in it, with conditions on attributes and children) selects exactly the elements that it leads to, each once, and in the order of the document unless it begins with // and has several steps. string() of a path that keeps this order gives the text at the first place; boolean() of a path gives whether there is a place, count() their number. The values of records are made of these. As the expression of the records, such a path with conditions on attributes only gives the elements that it leads to from the top of the document. A path alone is the value of a property only with a string parser.", "quantifier": "all expressions of this syntax, all nodes, and all well-formed documents", "why_tests_cant": "Tests try a few expressions on a few documents; the claim is about every expression and every shape of document, for example elements nested in elements of the same name.", "anchors": ["pkg/input/xml_config.go: validate", "pkg/input/xml_record.go: getAllValues, handleNodeIteratorValue", "docs/schema/inputs/xml.yaml"]}
{"id": "C123", "title": "Added components leave the others alone", "statement": "Adding parsers, inputs, indexes, outputs or services to a configuration does not change what is there: the configuration stays accepted if the new components are well formed and have names of their own, the program without the additions starts whenever the one with them does, and every service of the smaller configuration answers every request in the same way in both programs. The names of the additions must not be those of the built-in parsers or of the default index.", "quantifier": "all accepted configurations, all additions, all data files, all orders of the maps of both configurations, all requests", "why_tests_cant": "Tests run single configurations; the claim compares the answers of two programs to every request, for every way to extend a configuration.", "anchors": ["cmd/main.go: main", "pkg/config/config.go: NewConfigFromYamlFile, Validate", "pkg/output/json_common.go", "pkg/output/output.go: NewFromConfigs", "pkg/service/http.go: NewHttp"]}
{"id": "C124", "title": "A map index changes no answer", "statement": "A map index is only a faster way to find what a full scan finds: when map indexes of a configuration are replaced by full scans of the same name, the configuration stays accepted, the program still starts, and every service gives the same response to every request. The inputs of these indexes must have increasing positions (CSV files always have), and relationships that are looked up in these indexes must be for values that are not arrays or objects.", "quantifier": "all accepted configurations, all choices of map indexes, all data files, all orders of the maps of both configurations, all requests", "why_tests_cant": "Tests compare single searches; the claim compares the complete responses of two running programs, with their filters, pages, sorting and nested relationships, for every configuration and every file.", "anchors": ["pkg/index/map.go: NewMap, GetRecordPositions", "pkg/index/noop.go: GetRecordPositions", "pkg/output/json_array.go: Handle", "pkg/output/json_object.go: Handle", "pkg/output/json_common.go: loadRelationships, getFilteredRecordPositionsPerIndex", "cmd/main.go: main"]}
{"id": "C125", "title": "Parsers read what their declarations say", "statement": "In the running program, the parser of each name reads texts as the declaration of that name in the configuration says, or as documented for the built-in names: texts unchanged or converted from the given charset, integers in decimal without the ignored characters, numbers with the declared decimal separator, booleans from the lists of true and false values, and arrays whose elements are the pieces between the delimiters, each read by the parser that the split parser names. Everything else is an error, never another value.", "quantifier": "all accepted configurations, all orders of their maps, all declared and built-in parsers, all texts", "why_tests_cant": "Tests build single parsers by hand; the claim is about every parser that a configuration file can declare, with the settings it has after loading, and about every text.", "anchors": ["pkg/parser/parser.go: NewFromConfigs", "pkg/parser/integer.go: Parse", "pkg/parser/float.go: Parse", "pkg/parser/boolean.go: Parse", "pkg/parser/string.go: Parse", "pkg/parser/split.go: Parse", "pkg/parser/json.go: Parse", "cmd/main.go: main"]}
{"id": "C126", "title": "Defaults written out change nothing", "statement": "Writing some or all of the documented defaults into a configuration file (settings that were left out, the parsers that need not be declared, the index called \"default\"), or declaring the components in another order, changes nothing: the file is accepted if and only if it was accepted before, and the program starts with it if it started before, with the same services, each of which answers every request with the same status and body.", "quantifier": "all pairs of configurations that say the same once the defaults are written out, all orders of maps, all data files, all requests", "why_tests_cant": "Tests check a default or two on single components; the claim is about every combination of defaults that is left out or written out, and about everything the whole program answers.", "anchors": ["pkg/config/config.go: NewConfigFromParsedConfig, addDefaultConfigs, Validate", "pkg/input/csv_config.go: Validate", "pkg/input/xml_config.go: Validate", "pkg/index/sqlite_config.go: Validate", "pkg/output/json_array_config.go: Validate", "pkg/output/relationship/config.go: Validate", "pkg/service/http_config.go: Validate"]}
{"id": "C127", "title": "How the data is written does not matter", "statement": "Two sets of data files that hold the same data, in the same order, give the same program: it starts on one if and only if it starts on the other, with the same error if it does not, and every route of every service answers every request in the same way. Quotes around cells, line ends, blank lines, spaces, the way characters and numbers of JSON are written, and everything in an XML document that is not in a record can be different.", "quantifier": "all accepted configurations without full-text, SQLite or wildcard indexes, all orders of maps, all pairs of data files with the same contents, all requests", "why_tests_cant": "Tests read one spelling of a file; positions of records (bytes in the file) flow through indexes, sorting, joins and paging, and no sample shows that none of them reaches an answer.", "anchors": ["pkg/input/csv.go: Get, IterateAll", "pkg/input/json.go: Get, IterateAll", "pkg/input/xml.go: Get, IterateAll", "pkg/index/map.go: NewMap, GetRecordPositions", "pkg/index/noop.go: GetRecordPositions", "pkg/input/record/join.go: JoinPositionIterators", "pkg/output/json_array.go: Handle", "pkg/output/json_object.go: Handle"]}
{"id": "C128", "title": "Other parameters and their order do not matter", "statement": "A running service answers two requests for the same path in the same way (status, headers and body) if their query strings give the same first values to the parameters that the outputs behind its routes look at: the declared parameters, and the limit and offset parameters of lists. Other parameters, further values of a parameter, the order of the parameters, and the way they are written in the URL change nothing.", "quantifier": "all accepted configurations, all programs started from them, all services, all pairs of requests, all orders of maps", "why_tests_cant": "Tests send a few query strings; the claim is about every parameter that a client, proxy or tracker could add, in every order, for every configuration.", "anchors": ["pkg/service/http.go: getParams, getHandlerFunc", "pkg/output/json_array.go: Handle, getLimit, getOffset, getFiltersPerIndex", "pkg/output/json_object.go: Handle, getRouteFiltersPerIndex"]}
{"id": "C129", "title": "Only GET requests are served, and only their URL matters", "statement": "A running service answers every request whose method is not GET (HEAD, POST, PUT, DELETE, ...) with status 404 and the JSON error that no route was found, whatever the URL. What it answers to a GET request depends on the URL only: neither the content type nor the body of the request matter.", "quantifier": "all accepted configurations, all programs started from them, all services, methods, content types, bodies and URLs", "why_tests_cant": "Tests try a few methods on a few routes of hand-made outputs; the claim is about every configuration, and rests on no output taking a payload.", "anchors": ["pkg/service/http.go: getMatchingRoute, getPayload, getHandlerFunc, sendErrorResponse", "pkg/output/json_array.go: ExpectedPayloadType", "pkg/output/json_object.go: ExpectedPayloadType"]}
{"id": "C130", "title": "No object in a response has two members with the same name", "statement": "Whatever the data files hold (JSON documents with the same name twice in an object, at any depth; CSV files whose columns have the same name; XML properties with the same name; relationships named like properties; JSON texts inside of cells), every response of a running service that has a body is a JSON text in which no object has two members with the same name, so that it means the same to every client. With status 200 it stands for the data that the output gives, as long as its texts are valid UTF-8.", "quantifier": "all accepted configurations, all data files, all programs started from them, all services and requests", "why_tests_cant": "Unbounded data files, nesting and relationships; tests look at well-formed documents.", "anchors": ["pkg/input/json_record.go: All", "pkg/input/csv_record.go: All", "pkg/input/xml_record.go: All", "pkg/parser/json.go: Parse", "pkg/output/json_common.go: loadRelationships, getDataFromPosition", "pkg/output/json_array.go: Handle", "pkg/output/json_object.go: Handle"]}
{"id": "C131", "title": "The same request gets the same bytes", "statement": "The bytes of a response do not depend on the orders in which Go visits maps: the parameters of the output, the filters of the indexes, the relationships at every depth, and the members of the objects that are written. In two runs with any such orders the same request for a list gets the same bytes, and the same request for an object gets the same bytes or is told in both that there is no such record.", "quantifier": "all outputs, relationships of any depth, data, requests and pairs of orders of visit", "why_tests_cant": "Go chooses the orders at random on every visit; a test sees a few of them.", "anchors": ["pkg/output/json_array.go: Handle, getFiltersPerIndex", "pkg/output/json_object.go: Handle, getRouteFiltersPerIndex", "pkg/output/json_common.go: loadRelationships, getFilteredRecordPositionsPerIndex"]}
