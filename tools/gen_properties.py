import json
P=[]
def p(title, statement, quant, why, anchors):
    P.append(dict(id="C%02d"%(len(P)+1), title=title, statement=statement, quantifier=quant, why_tests_cant=why, anchors=anchors))
W="pkg/index/wildcard/"
# A. wildcard storage
p("Index stream reads its own writes",
  "Any sequence of add, replace, flush and get calls on the wildcard index stream behaves like one flat growable byte array: a get returns exactly the bytes last written at those addresses, whatever part of them is still buffered and whatever part is already in the file.",
  "every operation history, every offset and length, every buffer size, every byte content",
  "The boundary between buffer and file falls at a different place for every history; tests only sample a handful of boundaries.",
  [W+"stream.go: Stream.Get, Stream.Add, Stream.Replace, Stream.Flush"])
p("Flushed stream content survives reopening",
  "After Flush the file holds exactly the logical content of the stream, and a stream freshly opened on that file with its size returns the same bytes for every read.",
  "every operation history followed by Flush and reopen",
  "Needs every history, including ones where only part of the data was ever buffered.",
  [W+"stream.go: Stream.Flush, NewStream"])
p("On-disk cells round-trip",
  "Every tree node, every position cell and every metadata block whose fields fit in their declared widths is read back field by field exactly as it was written.",
  "all field values within 64-bit (16-bit for the version, any number of root offsets)",
  "2^448 node values; tests try a few literals.",
  [W+"node.go: TreeNode.Serialize, TreeNode.Unserialize", W+"position.go: PositionLinkedList.Serialize/Unserialize", W+"metadata.go: Metadata.Serialize/Unserialize"])
p("Wildcard search finds exactly the records containing the substring",
  "For a wildcard index built from any records, a query for a non-empty string returns exactly the positions of the records whose property value contains that string as a contiguous substring: none missing, none extra.",
  "every finite sequence of records with increasing positions, every string value, every non-empty query, every buffer size",
  "The tree shape depends on the whole history of splits; the number of histories is unbounded.",
  ["pkg/index/wildcard.go: Wildcard.createIndex, Wildcard.GetRecordPositions", W+"node.go: TreeNode.AddAllSequences, addSequence, GetSequence, FindChildByPrefix, AppendChild, AppendPositionIfNotExists", W+"position.go: Copy, Iterate"])
p("Wildcard results are sorted and duplicate free",
  "The positions a wildcard query yields are strictly increasing, as the index contract requires, even when the substring occurs several times in one record.",
  "every sequence of records with increasing positions, every query",
  "Depends on all histories of node splits and position copies.",
  ["pkg/index/index.go: Index", "pkg/index/wildcard.go: GetRecordPositions", W+"node.go: AppendPositionIfNotExists"])
p("Wildcard query with an empty string",
  "Every string contains the empty string, so a wildcard query for the empty string should return every indexed record.",
  "every set of records, empty query",
  "It is a universally quantified statement over all data sets.",
  [W+"node.go: TreeNode.GetSequence"])
p("Case-insensitive wildcard search",
  "With ignoreCase the query matches a record iff the lower-cased value contains the lower-cased query; without it, matching is byte exact.",
  "every lower-casing function result, all records, all queries",
  "Ranges over all strings.",
  ["pkg/index/wildcard.go: addValueToIndex, GetRecordPositions", "pkg/index/wildcard_config.go: ShouldIgnoreCase"])
p("A reloaded wildcard index answers like the freshly built one",
  "Restarting rodb with an existing, completely written index file (same configuration, unchanged input) loads successfully and every query gets the same answer as from the process that built it.",
  "every data set and every query",
  "Requires equality for all queries on all data sets.",
  ["pkg/index/wildcard.go: NewWildcard, createIndex, loadIndex", W+"metadata.go: LoadMetadata, GetRootNode"])
p("An interrupted wildcard build is never accepted as complete",
  "If the process dies at any moment while the index file is being built, the next start either refuses the file or serves exactly the answers of the full index.",
  "every data set and every crash point (every prefix of the file writes)",
  "Crash points are not reachable by unit tests and there is one per write.",
  ["pkg/index/wildcard.go: createIndex lines 127-134", W+"stream.go: Replace, Flush", W+"metadata.go: Save, AssertValid"])
p("A stale or foreign wildcard index file is refused",
  "An existing index file is accepted only if it was produced by a completed build of the same index version for the same input contents and the same configuration.",
  "every pair of (file metadata, current input and configuration)",
  "Ranges over all inputs and configurations.",
  [W+"metadata.go: AssertValid"])
p("Loading an arbitrary index file never crashes the process",
  "Whatever bytes are found in the configured index file, opening the index either succeeds or reports an error; it never panics.",
  "every byte string",
  "Unbounded set of corrupt files.",
  [W+"metadata.go: LoadMetadata, Unserialize"])
p("Several wildcard filters are conjoined",
  "Querying a wildcard index on several properties returns exactly the positions whose record satisfies all the filters, in increasing order, independently of the order in which the filters are visited.",
  "every data set, every set of filters, every map iteration order",
  "Go map iteration order is random.",
  ["pkg/index/wildcard.go: GetRecordPositions", "pkg/input/record/join.go: JoinPositionIterators"])
p("Non-string data makes the wildcard build fail loudly",
  "If some record has a null, numeric, boolean, array or object value in a wildcard-indexed property, the build reports an error and the file left behind is refused by the next start; it is never silently incomplete.",
  "every data set containing at least one such value at any place",
  "Ranges over all data sets and positions of the bad value.",
  ["pkg/index/wildcard.go: addValueToIndex, createIndex"])
# B. map/noop
p("Map index finds exactly the records with equal values",
  "A map index query returns exactly the positions of the records whose indexed properties are strictly equal to the filters (same type, same value), in increasing order.",
  "every data set of scalar values, every filter set, every map iteration order",
  "Ranges over all data sets and iteration orders.",
  ["pkg/index/map.go: reindex, addValueToIndex, GetRecordPositions"])
p("Indexes are transparent: map index equals full scan",
  "For scalar data, replacing the default (noop) index of a parameter by a map index on the same property does not change which records are returned nor their order.",
  "every data set, every non-empty filter set on indexed properties",
  "Equality of two algorithms on all inputs.",
  ["pkg/index/map.go: GetRecordPositions", "pkg/index/noop.go: GetRecordPositions"])
p("Indexing a record never crashes the process",
  "Building a map index on any record data either succeeds or returns an error, including when the property holds an array (the code explicitly tries to index array elements).",
  "every record value",
  "Recursive values are an infinite domain.",
  ["pkg/index/map.go: addValueToIndex lines 103-121"])
p("Full scan returns exactly the matching records",
  "The noop index yields exactly, in input order, the positions of the records whose properties equal all the filters, and keeps returning the end marker once exhausted.",
  "every input, every filter set, any number of calls",
  "Iterators are histories of calls.",
  ["pkg/index/noop.go: GetRecordPositions"])
p("A request releases the files it opened",
  "Every file opened to serve a request is closed once the response has been produced.",
  "every request, data set, limit and offset",
  "Leaks show only over unbounded request histories.",
  ["pkg/index/noop.go: GetRecordPositions lines 40-90", "pkg/output/json_object.go: Handle", "pkg/output/json_array.go: Handle"])
p("No implicit type conversion in filters",
  "A filter never matches a record value of a different type: text never equals a number, and a value parsed by the integer parser never equals a JSON number.",
  "all values and filters",
  "Infinite domain of values.",
  ["pkg/index/noop.go: GetRecordPositions", "pkg/index/map.go", "pkg/input/json.go: Get", "pkg/parser/integer.go: Parse"])
# C. join
p("Joining position iterators is sorted intersection",
  "Joining any number of iterators that yield increasing positions yields, in increasing order, exactly the positions common to all of them, independently of the order in which the iterators are given.",
  "every number of iterators, all increasing lists, all permutations",
  "Unbounded lists; the merge re-reads all iterators at every call.",
  ["pkg/input/record/join.go: JoinPositionIterators"])
p("A joined iterator stays at its end",
  "Once the joined iterator has reported the end, every further call reports the end again, whatever sorted iterators it joins.",
  "all sorted iterators, any number of extra calls",
  "Histories of calls.",
  ["pkg/input/record/record.go: PositionIterator", "pkg/input/record/join.go"])
p("Errors of an index are reported, not swallowed",
  "If an iterator fails while positions are being fetched, the join reports that error instead of silently ending the result.",
  "all iterators and failure points",
  "Failure points are unbounded.",
  ["pkg/input/record/join.go", "pkg/index/sqlite.go: GetRecordPositions", "pkg/index/fts5.go: GetRecordPositions"])
# D. sort
p("Comparison of parsed values is a total order within a type",
  "For two values of the same primitive type the comparison is reflexive-equal, antisymmetric and transitive: exactly one of less, equal, greater holds.",
  "all pairs/triples of strings, integers, booleans and non-NaN floats",
  "Infinite domain.",
  ["pkg/parser/parser.go: Compare"])
p("Sorted relationships are sorted",
  "Sorting records by a list of criteria returns a permutation of them in which no record precedes one that must come before it by the lexicographic order of the criteria.",
  "all lists of records whose sort properties have one primitive type each, all criteria, any correct comparison sort",
  "Unbounded lists and criteria.",
  ["pkg/input/record/sort.go: Sort, Less"])
p("Records with missing sort values keep the others sorted",
  "When some records lack the sort property (null), the remaining records still come out ordered by it.",
  "all lists of records with null or mixed-type or NaN sort values",
  "Depends on the list and on the sorting algorithm's comparisons.",
  ["pkg/input/record/sort.go: Less", "pkg/parser/parser.go: Compare"])
p("Descending is the reverse of ascending",
  "For values of one primitive type, sorting descending orders two different values exactly opposite to ascending and keeps equal values equal.",
  "all values",
  "Infinite domain.",
  ["pkg/input/record/sort.go: Less lines 47-51"])
# E. path
p("Dotted path lookup",
  "Looking up a dotted path in a parsed value walks objects by key and arrays by index; a missing key or an index past the end yields null, and only a path through a primitive or a non-numeric array index is an error. The JSON input and the shared helper used by CSV and XML agree.",
  "all values and paths",
  "Values and paths are recursive.",
  ["pkg/input/record/path.go: GetSubValue", "pkg/input/json_record.go: getSubValue"])
p("Path lookup never crashes",
  "A path lookup returns a value, null or an error for every path; it never panics.",
  "all values and paths, including negative indexes",
  "Infinite domain.",
  ["pkg/input/record/path.go: GetSubValue line 30", "pkg/input/json_record.go line 66", "pkg/input/xml_record.go line 228"])
p("XML property lookup agrees with the whole record",
  "For an XML record whose full conversion succeeds, looking up a path gives the value found at that path in the full conversion.",
  "every property configuration tree, every document, every path",
  "Recursive configuration and documents.",
  ["pkg/input/xml_record.go: Get, getSubValue, All, getAllValues"])
# F. parsers
p("Integer parser round-trip and range",
  "The integer parser returns n for the decimal text of every 64-bit integer n (optionally with ignored characters inserted anywhere), and returns an error for every text that is not an optionally signed digit sequence in range.",
  "all 64-bit integers, all texts",
  "2^64 integers, infinite texts.",
  ["pkg/parser/integer.go: Parse", "pkg/util/utils.go: RemoveCharacters"])
p("Ignored characters are removed, everything else is kept",
  "Removing a set of characters from a text deletes exactly the characters of that set and keeps the others in order.",
  "all texts and character sets",
  "Infinite domain.",
  ["pkg/util/utils.go: RemoveCharacters"])
p("Boolean parser decides by the configured lists",
  "A text yields true iff it is listed in trueValues, false iff it is listed only in falseValues, and is an error otherwise.",
  "all configurations and texts",
  "Infinite domain.",
  ["pkg/parser/boolean.go: Parse", "pkg/util/utils.go: IsInArray"])
p("Split parser keeps every piece",
  "Splitting on a non-empty literal delimiter and re-joining with it restores the text, no piece contains the delimiter, and the result has one element per piece, each parsed by the configured parser, in order; any failing piece makes the whole parse fail. With an empty delimiter the pieces are the characters of the text.",
  "all texts, delimiters and inner parsers",
  "Infinite domain.",
  ["pkg/parser/split.go: Parse"])
p("Parsing always terminates for an accepted configuration",
  "With any parser configuration accepted at startup, parsing any text terminates.",
  "all accepted parser configurations, all texts",
  "Non-termination cannot be observed by a finite test.",
  ["pkg/parser/split_config.go: Validate", "pkg/parser/split.go: Parse"])
p("Charset conversion is correct under concurrency",
  "A string parser shared by concurrent requests converts every value as if it were used by a single request.",
  "all schedules of concurrent conversions, all decoders",
  "Schedules are not controllable in tests.",
  ["pkg/parser/string.go: Parse (shared decoder)"])
# G. inputs
p("Reader position is independent of buffering",
  "The position reported for the next record equals the number of bytes consumed so far, whatever amounts the buffered reader pre-read.",
  "every sequence of reads, refills of any size and seeks",
  "Refill sizes depend on the OS.",
  ["pkg/util/bufio.go: GetBufferedReaderOffset, SetBufferedReaderOffset"])
p("CSV records can be fetched back by position",
  "For every record produced by a CSV scan, fetching its reported position returns the same row; positions are strictly increasing.",
  "every file content, every row reader that consumes a prefix of the remaining bytes, every refill schedule, every number of earlier fetches",
  "Ranges over all files and buffer states.",
  ["pkg/input/csv.go: Get, IterateAll", "pkg/util/bufio.go"])
p("Concurrent record fetches do not mix rows",
  "When any number of requests fetch records concurrently, each gets the row at the position it asked for.",
  "every number of threads and every interleaving of their steps",
  "Schedules cannot be enumerated by tests.",
  ["pkg/input/csv.go: Get (readerLock)", "pkg/input/json.go: Get", "pkg/input/xml.go: Get"])
p("CSV rows with too few or too many columns",
  "A record always has exactly the configured columns: surplus cells are ignored and missing ones are null; a row of the wrong width never makes a scan fail.",
  "all column configurations and row widths",
  "Infinite domain.",
  ["pkg/input/csv_record.go: getColumn, All", "pkg/input/csv.go: IterateAll lines 184-189"])
p("JSON scan visits every document",
  "Scanning a JSON-lines file yields every document of the file, and fetching a reported position yields that document; malformed content is reported as an error.",
  "every file content",
  "Infinite domain of files.",
  ["pkg/input/json.go: IterateAll, Get"])
p("Column autodetection gives unambiguous columns",
  "Autodetection succeeds exactly when the header cells are non-empty and pairwise distinct, and then the i-th column is named by the i-th cell and looked up at index i.",
  "all header rows",
  "Infinite domain.",
  ["pkg/input/csv.go: autodetectColumns"])
# H. outputs
p("Pagination returns the requested window",
  "A list response holds exactly the records ranked offset+1 to offset+limit in the filtered sequence, limit being the requested or default limit capped by the configured maximum.",
  "all data, limits, offsets and configurations",
  "Unbounded data and numbers.",
  ["pkg/output/json_array.go: Handle, getLimit, getOffset"])
p("Pages partition the result",
  "Walking the pages with offset 0, L, 2L, ..., with the same conditions (no two on the same property of the same index), lists every matching record exactly once and in order.",
  "all data and page sizes within the maximum",
  "Unbounded.",
  ["pkg/output/json_array.go: Handle"])
p("List output returns exactly the records matching all given parameters",
  "A list response (before paging) contains exactly the records that satisfy every supplied parameter (of several on the same property of the same index one counts, see C45), in position order, whatever mix of noop, map and wildcard indexes serves them and whatever order Go visits the maps.",
  "all data sets, parameter sets, index choices and map iteration orders",
  "Random map order and unbounded data.",
  ["pkg/output/json_array.go: getFiltersPerIndex, Handle", "pkg/output/json_common.go: getFilteredRecordPositionsPerIndex"])
p("Two parameters on one property are both applied",
  "When two request parameters are configured on the same property and index, both restrict the result, deterministically.",
  "all parameter values and map iteration orders",
  "Map iteration order is random per run.",
  ["pkg/output/json_array.go: getFiltersPerIndex", "pkg/output/parameter/config.go: Validate"])
p("Every configured page limit is honoured",
  "For every accepted limit configuration a request without a limit parameter returns up to the default number of records.",
  "all accepted limit configurations",
  "64-bit domain.",
  ["pkg/output/json_array.go: Handle line 111", "pkg/output/json_array_config.go: Validate"])
p("Object output returns the first match or not-found",
  "An object response is the first record, in position order, matching all the parameters (of several on the same property of the same index one counts, see C45), or a not-found error when there is none.",
  "all data sets and parameters",
  "Unbounded.",
  ["pkg/output/json_object.go: Handle, getRouteFiltersPerIndex"])
p("Relationship contents",
  "A relationship array holds the first `limit` (all if 0) of the sorted related records and a single relationship holds the first related record or null, each with its own nested relationships loaded.",
  "all data, nesting depths, limits and sort criteria",
  "Unbounded recursion.",
  ["pkg/output/json_common.go: loadRelationships"])
p("Sibling relationships are independent",
  "The loaded data does not depend on the order in which sibling relationships are processed.",
  "all relationship maps and iteration orders",
  "Random map order.",
  ["pkg/output/json_common.go: loadRelationships"])
p("A success status carries a JSON body",
  "Whenever the service answers 200, the body is the JSON encoding of the selected data.",
  "all data that the inputs can produce",
  "Unbounded data.",
  ["pkg/output/json_array.go: Handle line 135", "pkg/output/json_object.go: Handle line 118", "pkg/parser/float.go: Parse"])
p("Error statuses",
  "The service answers 404 exactly when no route matches or the record is not found, 500 for any other failure, and 200 otherwise; exactly one status is sent per request.",
  "all requests, routes and output behaviours",
  "Unbounded.",
  ["pkg/service/http.go: getHandlerFunc, sendErrorResponse"])
# I. service
p("Routing picks the first matching route",
  "A request is served by the first configured route whose path pattern matches and whose output accepts the method and content type.",
  "all route lists and requests",
  "Unbounded.",
  ["pkg/service/http.go: getMatchingRoute"])
p("Path placeholders receive the text they matched",
  "Each placeholder of a route path gets exactly the text matched at its place, and overrides a query parameter of the same name.",
  "all route paths, parser patterns and request paths",
  "Combination of parser patterns is unbounded.",
  ["pkg/service/http.go: createPathRegexp, getParams", "pkg/parser/boolean.go: GetRegexpPattern", "pkg/parser/float.go: GetRegexpPattern"])
p("Literal route paths match literally",
  "A route path without placeholders matches exactly the request path equal to it.",
  "all paths",
  "Infinite domain.",
  ["pkg/service/http.go: createPathRegexp line 155-173"])
p("Shutdown lets in-flight requests finish",
  "On an interrupt signal every request already being served is completed before the indexes and inputs are closed and the process exits.",
  "every interleaving of signal, requests and shutdown steps",
  "Schedules.",
  ["cmd/main.go: main", "pkg/service/http.go: Close, Wait"])
p("Displayed address",
  "The displayed service address replaces a wildcard listen address by 127.0.0.1 and leaves any other address unchanged, whatever order the replacements are tried in.",
  "all addresses, all iteration orders",
  "Random map order.",
  ["pkg/util/utils.go: GetAddress"])
# J. config
p("Configuration names are unique and defaults never override",
  "Reading the components of a configuration fails iff two of one kind share a name; otherwise each declared component is kept and a default is added only for absent names.",
  "all configurations",
  "Unbounded.",
  ["pkg/config/config.go: NewConfigFromParsedConfig, addDefaultConfigs"])
p("A validated configuration can be instantiated",
  "If validation succeeds, every reference between parsers, inputs, indexes, outputs and services resolves and construction does not fail for a missing or unsupported component.",
  "all configurations, all map iteration orders",
  "Unbounded.",
  ["pkg/config/config.go: Validate", "pkg/output/output.go: NewFromConfig", "pkg/output/relationship/config.go", "pkg/output/parameter/config.go"])
p("Documented collations are accepted",
  "Every collation documented for the sqlite index (binary, nocase, rtrim), in any letter case, is accepted by validation.",
  "all spellings of the documented values",
  "Case variants.",
  ["pkg/index/sqlite_config.go: SqlitePropertyCollateAllowedValues", "docs/schema/indexes/sqlite.yaml"])
# K. sqlite
p("Identifiers are quoted safely",
  "Any index or property name, including one containing quotes, is embedded in SQL as one quoted identifier denoting exactly that name.",
  "all names",
  "Injection strings are an infinite domain.",
  ["pkg/index/sqlite/sanitize.go: SanitizeIdentifier", "pkg/index/sqlite.go: createIndex, GetRecordPositions", "pkg/index/fts5.go: createIndex, GetRecordPositions"])
p("Different indexes never share SQL objects",
  "Two indexes or properties with different names stored in one database use different table, index and metadata names.",
  "all pairs of names",
  "Infinite domain.",
  ["pkg/index/sqlite.go: getIndexTableIdentifier, getIndexIdentifier", "pkg/index/sqlite/metadata.go: GetTableIdentifier"])
p("An interrupted sqlite build is never accepted as complete",
  "If the process dies between any two SQL statements of an index build, the next start rebuilds or refuses; it never accepts a partially filled table.",
  "every data set, every index whose names contain no NUL character, every history of starts and every crash point between statements",
  "Crash points.",
  ["pkg/index/sqlite.go: NewSqlite, createIndex", "pkg/index/sqlite/metadata.go: Save, HasMetadata, LoadMetadata, AssertValid"])
p("SQLite index finds exactly the records with equal values",
  "A sqlite index query returns exactly the positions of the records whose indexed columns equal all the filters; a filter on a property that the stored index does not have is rejected.",
  "all data sets, filters and map iteration orders",
  "Unbounded.",
  ["pkg/index/sqlite.go: createIndex, GetRecordPositions"])
# L. added while modelling
p("CSV and JSON property lookup agrees with the whole record",
  "For a CSV record whose full conversion succeeds, and for every JSON record, looking up a path gives the value found at that path in the full conversion, null for missing keys and indexes; for CSV, an unknown column is an error.",
  "all column configurations, rows, documents and paths",
  "Recursive values and paths.",
  ["pkg/input/csv_record.go: Get, All, getColumn", "pkg/input/json_record.go: Get, All"])
p("Float parser applies the separator and ignored characters",
  "The float parser returns the number written by the text after dropping the ignored characters and replacing every decimal separator with a point, and nothing else is changed.",
  "all texts, ignored characters and separators of one character",
  "Infinite domain.",
  ["pkg/parser/float.go: Parse"])
p("XML values have the type of their parser",
  "A primitive property of an XML record that has a value has one of the type of its configured parser, and an expression that selects nodes gives exactly their XML text and requires a string parser.",
  "all property configurations, documents and expression results",
  "Infinite domain of documents and configurations.",
  ["pkg/input/xml_record.go: getAllValues, handleNodeIteratorValue, handleStringValue, handleNumericValue, handleBoolValue"])
p("Accepted parser configurations are complete",
  "A parser configuration is accepted exactly when every split parser names an existing parser, every boolean parser has texts for both values and every float parser has a decimal separator; a split parser of an accepted configuration always finds the parser of its pieces.",
  "all parser configurations",
  "Infinite domain of configurations.",
  ["pkg/parser/split_config.go: Validate", "pkg/parser/boolean_config.go: Validate", "pkg/parser/float_config.go: Validate", "pkg/parser/split.go: Parse"])
p("A list request, end to end", "A GET request to a list route answers 200 with the JSON text of the array of exactly the records satisfying every condition given in the path or the query string (of several on the same property of the same index one counts, see C45), in order, from the asked offset on and at most the asked limit; or an error status.",
  "all configurations of a list output without relationships, all data, route paths, requests and orders of visiting maps",
  "Quantifies over all data, requests and configurations.", ["pkg/service/http.go: getHandlerFunc, getParams", "pkg/output/json_array.go: Handle"])
p("An object request, end to end", "A GET request to an object route answers 200 with the JSON text of the first record satisfying every condition (of several on the same property of the same index one counts, see C45), or 404 when there is none.",
  "all configurations of an object output without relationships, all data, route paths, requests and orders of visiting maps",
  "Quantifies over all data, requests and configurations.", ["pkg/service/http.go: getHandlerFunc, getParams", "pkg/output/json_object.go: Handle"])
p("Routes that cannot be served are refused at startup", "A route with a placeholder that is not a parameter of its output, or whose parser produces lists or objects, makes the startup fail; every parameter of an accepted route is one of its output with a parser of primitive values.",
  "all route paths, outputs and parsers", "Unbounded configurations.", ["pkg/service/http.go: NewHttp, createPathRegexp", "pkg/output/json_array.go: HasParameter, GetParameterParser", "pkg/output/json_object.go: HasParameter, GetParameterParser"])
p("Path placeholders accept what their parser reads", "Every text that the parser of a parameter reads as a value can be given in a route path for that parameter, and a text that the path accepts is readable by the parser.",
  "all parsers and texts", "Infinite domain of texts and configurations.", ["pkg/parser/integer.go: GetRegexpPattern, Parse", "pkg/parser/boolean.go: GetRegexpPattern, Parse"])
p("Acceptance does not depend on map order", "Whether a configuration is accepted, and the resulting configuration, do not depend on the order in which the maps of parsers, inputs, indexes, services and outputs are visited.",
  "all configurations and orders of visiting the maps of components", "Go randomizes the order of maps.", ["pkg/config/config.go: Validate"])
p("Accepted list outputs have usable paging", "In an accepted configuration every list output has a default limit of at least one and at most its maximum, and the limit, the offset and the filters have different parameter names.",
  "all configurations", "Unbounded configurations.", ["pkg/output/json_array_config.go: Validate"])
p("Loading a configuration never panics", "Loading a configuration gives a configuration or an error message, never a panic, whatever the paths in it.",
  "all configurations and file systems", "Unbounded configurations and file system states.", ["pkg/config/config.go: Validate", "pkg/input/csv_config.go: Validate", "pkg/input/json_config.go: Validate", "pkg/input/xml_config.go: Validate", "pkg/service/http_config.go: Validate"])
p("Nothing is listed twice in an accepted configuration", "An accepted configuration has no column, property, sorted or matched property of a relationship at any depth, or route path that is listed twice in its component.",
  "all configurations", "Unbounded configurations and depths.", ["pkg/input/csv_config.go: Validate", "pkg/input/xml_config.go: Validate", "pkg/index/map_config.go: Validate", "pkg/output/relationship/config.go: Validate", "pkg/service/http_config.go: Validate"])
p("A configuration is accepted exactly when it is well-formed", "A configuration is accepted exactly when names are given, not empty and not repeated, every reference leads to a component that can be used there, every required setting is given, the files exist, the expressions compile and the limits fit; anything else is refused.",
  "all configurations and file systems", "Unbounded configurations, with nested properties and relationships of any depth.", ["pkg/config/config.go: Validate", "pkg/parser/*_config.go: Validate", "pkg/input/*_config.go: Validate", "pkg/index/*_config.go: Validate", "pkg/output/*_config.go: Validate", "pkg/output/relationship/config.go: Validate", "pkg/service/http_config.go: Validate"])
p("Settings keep their values and get the documented defaults", "In an accepted configuration every component has the settings that were given for it, at any depth, and the documented default for each one that was not given; nothing else is added, dropped or changed.",
  "all configurations", "Unbounded configurations, with nested properties and relationships of any depth.", ["pkg/config/config.go: addDefaultConfigs, Validate", "pkg/input/*_config.go: Validate", "pkg/index/*_config.go: Validate", "pkg/output/*_config.go: Validate", "pkg/service/http_config.go: Validate", "docs/schema"])
p("What runs is what is configured",
  "When the program starts with an accepted configuration file, every parser, input, index, output and service that runs is the one of the file with that name, with the settings of the file (or the documented defaults), connected to the others by the names in the file, and each service has exactly the declared routes in the declared order.",
  "every parsed configuration file, every order of map iteration, every outcome of opening files and listening",
  "Tests start a handful of configurations; a swapped component shows only for particular combinations of names and orders.",
  ["cmd/main.go: main", "pkg/parser/parser.go: NewFromConfigs", "pkg/input/input.go: NewFromConfigs", "pkg/index/index.go: NewFromConfigs", "pkg/output/output.go: NewFromConfigs", "pkg/service/service.go: NewFromConfigs"])
p("From the configuration file to the response",
  "In a running program, a GET request to a route of a list output is answered with status 200 and the JSON array of exactly the records of the output's input that satisfy what the path and the query string ask of the indexes of the declared parameters (equality for map indexes and full scans; of several conditions on the same property of the same index one counts, see C45), in the order of the file, from the asked offset on and at most the asked limit; a route of an object output is answered with the first such record, or 404.",
  "every accepted configuration, every table of records, every request",
  "Any finite set of requests on any finite set of files misses combinations of indexes, parameters, parsers and data.",
  ["pkg/config/config.go: Validate", "pkg/service/http.go: getHandlerFunc", "pkg/output/json_array.go: Handle", "pkg/output/json_object.go: Handle", "pkg/index/map.go: GetRecordPositions", "pkg/index/noop.go: GetRecordPositions"])
p("Indexes on disk find what they are documented to find",
  "When the program starts and its wildcard, SQLite and full-text indexes are opened - built on a fresh disk, or found as earlier starts left them, including SQLite and FTS5 builds killed at any statement - every search by a wildcard index gives exactly the records whose property contains the text (up to case if so configured) every search by a SQLite index exactly the records whose property is equal for SQLite, and every search by a full-text index exactly the records that match, in the order of the input.",
  "every accepted configuration, every history of starts in which the indexes of that name were this one on this input, every table of records, every filter",
  "The state on disk depends on unbounded histories of starts and crashes.",
  ["pkg/index/index.go: NewFromConfig", "pkg/index/wildcard.go: NewWildcard, GetRecordPositions", "pkg/index/sqlite.go: NewSqlite, GetRecordPositions", "pkg/index/fts5.go: NewFts5, GetRecordPositions"])
p("Full-text search finds exactly the matching records",
  "A full-text index answers a search with exactly the positions of the records that match the expression, each once; a request for another input, with other filters than one called match, or with an expression that is not valid is rejected.",
  "every data set, every expression, every history of starts killed at any statement",
  "Unbounded data, expressions and histories.",
  ["pkg/index/fts5.go: NewFts5, createIndex, GetRecordPositions"])

p("CSV files are read as they are written",
  "A CSV file written in the usual way (RFC 4180: cells as they are, or between quotes with their quotes doubled; lines that end in LF or CRLF; empty lines anywhere) is read back as exactly its rows and its cells, in order, by a scan and by fetching; a CRLF inside a quoted cell is read as LF and everything else verbatim. A misplaced or unclosed quote ends the scan with an error after the rows before it, and is never read as other cells.",
  "every delimiter, every table of cells of any bytes, every way to write it, every schedule of reads from the file",
  "Unbounded files, with any bytes in their cells and any boundary between the blocks that are read.",
  ["pkg/input/csv.go: open, IterateAll, Get", "pkg/input/csv_config.go: Validate", "pkg/input/csv_record.go"])

p("From the bytes of a CSV file to the response",
  "In a running program, a GET request to a route of a list output without relationships on a well written CSV file, whose parameters are on columns (or on dotted paths into their values) that are searched by map indexes or full scans, is answered with exactly the objects of the rows of the file (each cell read by the parser of its column, columns declared or named by the first row) that have the given values (of several on the same property of the same index one counts, see C45), in the order of the rows, from the asked offset on and at most the asked limit; a route of an object output with the first such object, or 404. The answer does not depend on how the file is read ahead or what other requests did with the shared reader.",
  "every accepted configuration, every content of the files, every request, every schedule of reads and every state of the shared reader",
  "Any finite set of files and requests misses combinations of cells, quoting, delimiters, parsers, indexes and parameters.",
  ["pkg/input/csv.go: NewCsv, open, autodetectColumns, IterateAll, Get", "pkg/input/csv_record.go: All, Get", "pkg/input/input.go: NewFromConfig", "pkg/output/json_array.go: Handle", "pkg/output/json_object.go: Handle", "pkg/service/http.go: getHandlerFunc"])

p("Responses are JSON texts of the data",
  "Every response of a service is the JSON text (RFC 8259) of the data and a newline, with status 200, or the JSON text of an object with only an error message (that no route matches, that there is no such record, or the message of the failure), with status 404 or 500, or an empty body if the data has a number that JSON cannot write. The text stands for the data as long as its texts are valid UTF-8 (what is not is written as U+FFFD), and its bytes depend only on the data, not on the order in which maps are visited.",
  "every response data of any shape and size, every configuration of routes, every request",
  "Unbounded values; escaping depends on every byte of every text.",
  ["pkg/output/json_array.go: Handle", "pkg/output/json_object.go: Handle", "pkg/service/http.go: getHandlerFunc, sendErrorResponse"])
p("JSON files are read as they are written",
  "A JSON file made of objects, written in any way that RFC 8259 allows, is read as exactly these objects, in order, by a scan and by fetching (the last member counts where a key is repeated); a scan without an error has only read JSON texts. The JSON parser reads exactly the JSON texts; what rodb writes is read back by rodb as the same data.",
  "every sequence of objects nested at most 10000 times, every way to write it, every content of the file",
  "Unbounded files, with any nesting, spacing and escapes.",
  ["pkg/input/json.go: IterateAll, Get", "pkg/input/json_record.go: NewJson", "pkg/parser/json.go: Parse"])
p("From the bytes of a JSON file to the bytes of the response",
  "In a running program, a GET request to a route of a list output without relationships on a JSON file, whose parameters are on dotted paths that are searched by map indexes or full scans, is answered with the JSON text of the array of exactly the objects of the file that have the given values at these paths (of several on the same property of the same index one counts, see C45), in the order of the file, from the asked offset on and at most the asked limit; a route of an object output with the first such object, or 404.",
  "every accepted configuration, every content of the files, every request",
  "Any finite set of files and requests misses combinations of objects, paths, spellings, indexes and parameters.",
  ["pkg/input/json.go: NewJson, IterateAll, Get", "pkg/input/json_record.go: All, Get", "pkg/output/json_array.go: Handle", "pkg/output/json_object.go: Handle", "pkg/service/http.go: getHandlerFunc"])

p("From the bytes of all the files to responses with relationships",
  "In a running program whose inputs are CSV, JSON and XML files, a GET request to a route of a list output is answered with the JSON text of the array of exactly the objects that have the given values (of several on the same property of the same index one counts, see C45), each shown with its relationships to any depth: for every relationship the objects of the other file that have, at the child paths, the values of the parent's properties, in the order of that file or sorted by the declared criteria, at most the declared number of them (or the first one, or null if there is none); a route of an object output with the first such object, or 404.",
  "every accepted configuration on CSV, JSON and XML files with map indexes and full scans, every content of the files, every tree of relationships that fits the data, every request",
  "Any finite set of files and requests misses combinations of data, nesting, sorting, limits and indexes.",
  ["pkg/output/json_array.go: Handle", "pkg/output/json_object.go: Handle", "pkg/output/json_common.go: loadRelationships, getRelationshipFiltersPerIndex, getFilteredRecordPositionsPerIndex", "pkg/input/csv.go", "pkg/input/json.go", "pkg/service/http.go: getHandlerFunc"])

p("Changed input files are noticed",
  "With dieOnInputChange (the default) the program never goes on serving changed data: as long as it runs and no notice of a write is waiting, scans and fetches read what the file contained when the input was opened; after a write to the file a notice is waiting or the program has ended, and in every schedule it ends before all the events that were there with the notice are taken. Nothing but a write to an input file ends it. Without dieOnInputChange it never ends by itself, and it warns. A missing input file stops the start.",
  "every sequence of writes, replacements, other changes and notices, in any interleaving with the program's own steps, before and after the input is opened",
  "Which interleaving of writes, notifications and reads happens is decided by the operating system; a test sees one.",
  ["pkg/util/fsnotify.go: StartFilesystemWatchProcess", "pkg/input/csv.go: NewCsv, Get, IterateAll", "pkg/input/json.go: NewJson, Get, IterateAll", "pkg/input/xml.go: NewXml, Get, IterateAll"])

p("From the bytes of all the files to responses, with indexes of every kind",
  "In a running program whose inputs are CSV, JSON and XML files and whose wildcard files and SQLite databases did not exist or were left by earlier starts, in which the process may have died after any number of statements, a GET request to a route of a list output is answered with the JSON text of the array of exactly the objects that the asked indexes find (of several on the same property of the same index one counts, see C45): those whose text contains the given one for wildcard indexes (whatever its case, if so configured), those with a value that is equal under the collation for SQLite indexes, those that match the expression for full-text indexes, those with an equal value for the others; each with its relationships, whose objects are found likewise. A route of an object output is answered with the first such object, or 404.",
  "every accepted configuration on CSV, JSON and XML files, with any number of indexes of all kinds; every content of the files; every history of starts and crashes of the databases; every request",
  "Any finite set of files, databases and requests misses combinations of data, indexes, histories, parameters and relationships.",
  ["pkg/index/wildcard.go: NewWildcard, GetRecordPositions", "pkg/index/sqlite.go: NewSqlite, GetRecordPositions", "pkg/index/fts5.go: NewFts5, GetRecordPositions", "pkg/output/json_array.go: Handle", "pkg/output/json_object.go: Handle", "pkg/output/json_common.go", "pkg/input/csv.go", "pkg/input/json.go", "pkg/service/http.go: getHandlerFunc"])

p("Requests that cannot be read are refused",
  "In a running program, a request to a route of a list output whose limit is given but is not a positive 64-bit number, whose offset is given but is not a 64-bit number from 0 on, or that gives a parameter, in the path or in the query string, a text that the parser of the parameter does not accept, is answered with status 500 and a JSON object with an error, never with data; so is a request to an object output with such a parameter, where a missing parameter is the empty text. All other list requests have a meaning: conditions, a limit and an offset.",
  "every accepted configuration, every content of the files, every request",
  "There are unboundedly many texts and combinations of parameters, and several may be wrong at the same time, met in any order.",
  ["pkg/output/json_array.go: Handle, getLimit, getOffset, getFiltersPerIndex", "pkg/output/json_object.go: Handle, getRouteFiltersPerIndex", "pkg/service/http.go: getHandlerFunc, sendErrorResponse", "pkg/parser: Parse"])

p("Environment variables in the configuration file",
  "In the text of the configuration file every `${NAME}` and every `$NAME` that is not followed by a character of names is replaced by the value of the environment variable, which is not expanded again, and all the other text is kept as it is; a file without `$` is taken verbatim.",
  "every text of the configuration file, every environment",
  "There are unboundedly many texts and values, and values may contain anything, including other references.",
  ["pkg/config/config.go: NewConfigFromYamlFile"])

p("What the configuration file may say",
  "The YAML document of the configuration is read as a configuration exactly if it describes it as documented: the five lists of components, each component a mapping with a known type, the settings of this type, each at most once and with a value of the right kind, in any order, left-out settings having their empty value. Misspelled settings, settings given twice, unknown types and values of other kinds are refused. Every configuration can be written as a document and is read back as it was.",
  "every YAML document, every configuration",
  "Documents are nested without bound, and each of the many settings can be missing, misspelled, repeated or of another kind.",
  ["pkg/config/config.go: NewConfigFromYamlFile", "pkg/config/parser.go, input.go, index.go, output.go, service.go: UnmarshalYAML", "pkg/util/config.go: GetTypeFromConfigUnmarshaler", "pkg/*/*_config.go: yaml tags"])

p("From the configuration file to the running program",
  "A configuration file is accepted exactly if, with the values of the environment variables in it, it is a YAML document that describes a well-formed configuration; a program that runs, runs with what its file describes. Any other file is refused with an error, without a panic.",
  "every content of the configuration file, every environment, every state of the file system",
  "The set of files is unbounded and the claim is an equivalence: no refused file is fine, no accepted one is wrong.",
  ["pkg/config/config.go: NewConfigFromYamlFile", "cmd/main.go: main"])

p("The exit status tells whether a server failed",
  "When the process ends after its services were up, its exit status is 0 if all the servers were shut down, and 1 if one of them stopped by an error of its own; there is no other status.",
  "every number of services and servers, every order in which they are visited, every interleaving of requests, failures, signals and shutdown steps",
  "Schedules.",
  ["cmd/main.go: main", "pkg/service/service.go: Wait, Close", "pkg/service/http.go: NewHttp, Wait, Close"])

p("The failure of a server ends the program",
  "If a server stops by an error of its own, for example because its certificate cannot be read, the program reports it and ends with status 1.",
  "every number of services and servers, every order in which they are visited, every interleaving of requests, failures, signals and shutdown steps",
  "Schedules; and the claim is about what eventually happens.",
  ["cmd/main.go: main", "pkg/service/service.go: Wait", "pkg/service/http.go: NewHttp, Wait"])

p("A signal ends the program",
  "After an interrupt signal the program ends by itself, within a bounded number of its own steps, when the requests that are being answered are answered.",
  "every number of services and servers, every order in which they are visited, every interleaving of requests, failures, signals and shutdown steps",
  "Schedules; and the claim is about what eventually happens.",
  ["cmd/main.go: main", "pkg/service/service.go: Wait, Close", "pkg/service/http.go: Wait, Close"])

p("Following the pages of a list",
  "A client that asks for the pages of a list over files with map and default indexes one after the other, each request with the same conditions (no two on the same property of the same index), the page size as limit and the page size times the number of the page as offset, gets every object of the file that satisfies the conditions exactly once, in the order of the file, in answers of at most the page size.",
  "every configuration, every content of the CSV, JSON and XML files, every page size up to the maximum, every number of pages, every conditions",
  "Unbounded numbers of objects and pages; an object lost or repeated at a page boundary depends on both.",
  ["pkg/output/json_array.go: Handle, getLimit, getOffset", "pkg/service/http.go: handler", "pkg/index/default.go, map.go, noop.go"])

p("Scanning an XML file",
  "Scanning an XML file that is a well-formed document, with a record expression that selects elements anywhere by their name and attributes as //item does (see C103 for others), gives the elements that the expression looks for, each once, in the order of the document, at increasing positions inside of the file; elements inside of another such element belong to it. If something in the file is not XML, the scan ends with an error, not as if the file ended there.",
  "every content of the file, every expression that looks for elements anywhere in the document",
  "Documents of unbounded size and depth.",
  ["pkg/input/xml.go: IterateAll"])

p("An XML record is found again at its position",
  "Fetching a record of an XML file by the position at which a scan gave it gives the same record, whatever was fetched before.",
  "every document, every record expression, every history of fetches",
  "Histories: the parser keeps its state from one fetch to the next.",
  ["pkg/input/xml.go: Get, IterateAll"])

p("From the bytes of an XML file to the response",
  "A request to a list or object route on an XML file is answered with the JSON text of the records of the document, each with its properties: texts parsed by the declared parsers, numbers and booleans of expressions, nested objects and arrays, null where nothing is found; exactly the records that have the asked values (of several on the same property of the same index one counts, see C45), in the order of the document, in the asked window.",
  "every configuration, every XML document, every request",
  "Documents, property trees and requests are unbounded; and fetches depend on the fetches before.",
  ["pkg/input/xml.go: NewXml, Get, IterateAll", "pkg/input/xml_record.go: All, Get", "pkg/output/json_array.go: Handle", "pkg/output/json_object.go: Handle", "pkg/service/http.go: getHandlerFunc"])

p("XML files are read as they are written",
  "However a document is written (entities and character references, CDATA sections, comments, processing instructions, a declaration and a document type, either quote around attributes, empty elements, blanks in tags, any line ends), a scan of the file for elements anywhere with a name and attributes gives the elements of the document that are looked for, with their attributes, texts and children, each once and in order. Every tree of elements, attributes and texts can be written.",
  "every tree of elements, attributes and texts, every way to write it, every expression that looks for elements anywhere in the document",
  "Documents of unbounded size and depth with many ways to write each of them.",
  ["pkg/input/xml.go: IterateAll"])

p("A truncated XML file is not read as a complete one",
  "If an XML file ends too early, for example because it is still being copied, a scan gives records of the complete file and then an error; it does not end as if the file were complete.",
  "every document, every way to write it, every place where it is cut, every record expression",
  "Every place in documents of unbounded size, each of which may be inside of any construct of XML.",
  ["pkg/input/xml.go: IterateAll"])

p("The records of an XML file are what the record expression selects",
  "A scan of an XML file gives the nodes that the record expression selects in the document, each once, in the order of the document; nodes inside of another such node belong to it.",
  "every document, every record expression",
  "Documents of unbounded size and depth; the program decides at each start tag from the document so far.",
  ["pkg/input/xml.go: IterateAll, NewXml", "docs/schema/inputs/xml.yaml: recordXpath"])

p("How a truncated JSON file is read",
  "If a JSON file ends too early, for example because it is still being copied, a scan gives the records of its complete objects, the same as the complete file begins with. Then it ends if the cut is between two objects, and gives an error if the cut is inside of an object.",
  "every sequence of objects, every way to write it, every place where it is cut",
  "Every place in texts of unbounded size, each of which may be inside of any construct of JSON.",
  ["pkg/input/json.go: IterateAll"])

p("The complete rows of a CSV file do not depend on what follows",
  "If a CSV file is cut anywhere, or more is written at its end, the scans of both give the same records at the same positions, until the shorter one has at most one more record or error: the row in which it was cut. The complete rows of a well written file are always among the common ones.",
  "every file, well written or not, every place where it is cut, every delimiter, header or not, every way the file is delivered in pieces",
  "Every place in texts of unbounded size; a cut may be inside of quotes, which changes the meaning of what follows.",
  ["pkg/input/csv.go: IterateAll, NewCsv"])

p("The URL of a request is read as it is written",
  "However the path and the parameters of a request are written in its URL (percent-encoding of any characters with digits of either case, + for spaces, superfluous &, parameters without =), the request has this path, and every parameter has the first value given for it. A request whose URL cannot be read is refused.",
  "every path, every list of parameters with any bytes as values, every way to write them; every text as URL",
  "Paths and values of unbounded length with many ways to write each byte.",
  ["pkg/service/http.go: getParams, getMatchingRoute"])

p("A search in a damaged wildcard index ends",
  "If the program starts with an existing file of a wildcard index, every search in it ends, with an answer or an error that is reported, and does not stop the program, whatever the rest of the file contains.",
  "every content of the file behind a valid header, every searched text",
  "A file may contain any bytes, and links that form any graph: only some of them make a search follow links for ever.",
  ["pkg/index/wildcard/node.go: GetTreeNode, FindChildByPrefix, GetSequence", "pkg/index/wildcard/position.go: GetPositionLinkedList, Iterate", "pkg/index/wildcard/stream.go: Get"])

p("The program as a whole: from its files and a URL to the bytes of the response",
  "Whoever writes a configuration file and data files, starts the program and sends it a GET request gets the JSON text that the documentation promises: for a list output the objects of the file that match the parameters in the URL, in the order of the file, the asked page of them, each with its relationships; for an object output the first one, or 404. Nothing in between, neither the order of maps, nor the kind of the indexes and inputs, nor the way the URL and the files are written, changes this.",
  "every configuration file with any environment variables, all contents of CSV, JSON and XML files, indexes of every kind, every way to write the URL, every order of the maps",
  "It is about every configuration, every content of the files and every request at once.",
  ["cmd/main.go: main", "pkg/config/config.go: NewConfigFromYamlFile", "pkg/service/http.go: getHandlerFunc", "pkg/output/json_array.go: Handle", "pkg/output/json_object.go: Handle"])

p("Every request is answered",
  "A running program answers every request: with status 400 if its URL cannot be read, 404 if no route suits it or there is no such object, 500 with a JSON error if a parameter cannot be read by its parser or the asked page makes no sense, and otherwise with 200. In particular a request that makes sense never fails, and none makes the program panic or hang.",
  "every configuration and content of the files, every method, URL, content type and body of a request",
  "Any text may be sent to the program, and whether it panics depends on the data of all the inputs, indexes and relationships together.",
  ["pkg/service/http.go: getHandlerFunc, getParams, sendErrorResponse", "pkg/output/json_array.go: Handle", "pkg/output/json_object.go: Handle"])

p("Requests do not disturb each other",
  "The response to a request is the one the program gives to this request alone, whatever other requests have been handled before it and are being handled at the same time, however their steps are interleaved. No request blocks the others for ever: whatever has happened, all requests can still be brought to an end.",
  "every configuration and content of the files, any number of requests of any kind that arrive at any times, every interleaving of the steps of their handlers, every state of the shared readers",
  "The number of interleavings is unbounded, and a mistake shows only for a few of them.",
  ["pkg/input/csv.go: Get", "pkg/input/json.go: Get", "pkg/output/json_array.go: Handle", "pkg/output/json_object.go: Handle", "pkg/output/json_common.go: loadRelationships, getDataFromPosition", "pkg/service/http.go: getHandlerFunc"])

p('A route serves exactly the request paths that its path stands for as a regular expression',
  "The path of a route is a regular expression in Go's syntax, in which {name} stands for the texts that the pattern of the parser of this parameter matches. A route with such a path is created, and it serves exactly the request paths that the expression matches: the whole request path if the expression has one alternative; otherwise the first alternative at the start of the request path, the last one at its end and the others anywhere.",
  'every path written with characters, quoted characters, dots, brackets, parentheses, repetitions, alternatives and placeholders, nested to any depth; every request path',
  'Expressions of unbounded size and depth, and request paths of unbounded length.',
  ['pkg/service/http.go: createPathRegexp, getMatchingRoute'])

p('The program can be stopped and started again, and its indexes can share databases',
  "Whatever number of times the program was started before on the same machine, on these or other data files, successfully or not, or was killed while it started, a start that succeeds gives services that answer from the objects in the data files, as in C108. Several SQLite and FTS5 indexes may use one database if their names differ in more than the case of letters. Starting once more changes nothing on the machine and gives the same services; neither does the order in which the configuration's maps are visited change what is on the machine.",
  'every configuration whose indexes have files and tables of their own, every content of the files, every number of earlier starts, each with any content of the files and killed at any point or not at all, every order of visiting maps, every request',
  "Histories of unboundedly many starts, with every iteration order of Go's maps at each, and files of unbounded size.",
  ['cmd/main.go: main', 'pkg/index/index.go: NewFromConfig, NewFromConfigs', 'pkg/index/wildcard.go: NewWildcard', 'pkg/index/sqlite.go: NewSqlite', 'pkg/index/fts5.go: NewFts5'])

p('Searches at the same time in one SQLite or FTS5 index do not disturb each other',
  'However many searches of a SQLite or FTS5 index are made at the same time, in whatever order their statements are executed, and whether or not the iterators they return are read to their ends: each of them answers the positions of exactly the records that satisfy its filters, does not fail, and ends after a bounded number of its own steps. When all of them have ended at most two connections to the database stay open.',
  'every index and every content of its input, every number of searches with any filters, every interleaving of their steps, every choice of a free connection, every iterator read to its end or in part or not at all',
  'Schedules of unboundedly many searches, with connections that the pool of database/sql gives to any of them. A test makes one search after the other and reads each to its end.',
  ['pkg/sqlite/open.go: Open', 'pkg/sqlite/sanitize.go: SanitizeIdentifier', 'pkg/index/sqlite.go: Sqlite.GetRecordPositions', 'pkg/index/fts5.go: Fts5.GetRecordPositions'])

p('Starting again after the data files have changed',
  'When the program is started on a machine where it was started before, and the data file of an input has changed since a wildcard, SQLite or full-text index was built for it, the start fails rather than answering requests from an index of the old data; and no later start, with any data files, changes what the indexes have stored.',
  'for all configurations whose indexes have places of their own, all libraries, all data files at each of the starts, all sequences of starts before and after the one that built the indexes, and all orders in which the maps of the configuration are walked',
  'It concerns sequences of starts with different data files; tests start an index at most twice, with one altered metadata field.',
  ['pkg/index/wildcard/metadata.go: Metadata.AssertValid', 'pkg/index/sqlite/metadata.go: Metadata.AssertValid', 'pkg/index/wildcard.go: NewWildcard', 'pkg/index/sqlite.go: NewSqlite', 'pkg/index/fts5.go: NewFts5', 'cmd/main.go: main'])

p('Errors while a request is answered',
  "If, while a request is answered, searches of indexes fail, at once or after some positions, or records cannot be read from an input, then the client gets the response it would get if nothing had failed, or one with the status 500 (Internal Server Error): never a shorter list, a missing relationship or 'not found' with status 200 or 404.",
  'for all configurations of outputs and services, all inputs and indexes, all choices of the searches and records that fail and of the points where they fail, and all requests',
  'It concerns every point at which a read can fail in every combination of indexes, pages and nested relationships; tests inject at most one error.',
  ['pkg/output/json_array.go: JsonArray.Handle', 'pkg/output/json_object.go: JsonObject.Handle', 'pkg/output/json_common.go: getRelationshipFiltersPerIndex, loadRelationships', 'pkg/input/record/join.go: JoinPositionIterators', 'pkg/service/http.go: Http.getHandlerFunc'])

p('Starts of the program that are killed anywhere',
  'However earlier starts of the program on a machine were killed, also while the file of a wildcard index is completed, every response of a program that has started is the right one (what the data files say, as in C108), or has the status 500.',
  'for all accepted configuration files whose indexes have places of their own, all libraries, data files and machines, all sequences of earlier starts, each with its own data files, successful, failed or killed at any byte of what it writes, all orders in which the maps of the configuration are walked, and all requests',
  'It concerns every byte at which a process can die, in every sequence of starts, and all later requests.',
  ['pkg/index/wildcard.go: NewWildcard, Wildcard.createIndex', 'pkg/index/wildcard/metadata.go: Metadata.AssertValid', 'cmd/main.go: main', 'pkg/output/json_array.go: JsonArray.Handle', 'pkg/service/http.go: Http.getHandlerFunc'])

p('Indexes that SQLite cannot build',
  'A SQLite or full-text index that SQLite cannot build makes the program fail when it starts, instead of being served, however often it was started before and wherever these starts were killed. On an empty database such an index is built exactly if it has properties, their names differ in more than the case of letters (and, for a full-text index, are not names that its table uses itself), the collations and the tokenizer exist, there are at most 31 lengths of prefixes, from 1 to 999, and all records of the input can be read and have values that SQLite can store.',
  'for all accepted declarations of SQLite and full-text indexes with names without NUL, all inputs and all libraries; and for all accepted configurations with several indexes that may share databases, all machines, data files, orders in which the indexes are opened, and histories of earlier starts',
  'It concerns every declaration that the validation of the configuration accepts, and every input.',
  ['pkg/index/sqlite.go: NewSqlite, Sqlite.createIndex', 'pkg/index/fts5.go: NewFts5, Fts5.createIndex', 'pkg/index/sqlite_config.go: SqliteConfig.Validate', 'pkg/index/fts5_config.go: Fts5Config.Validate', 'cmd/main.go: main'])

p('From the command line to the servers',
  '`rodb` reads its command line by a fixed grammar (`--config v`, `--config=v`, `-c v`, `-c=v`, `-cv`, the same for loglevel; the last value counts; the defaults are info and rodb.yaml); it exits with status 2 for any other command line and with 1 for a level that is no level or a file that describes no valid configuration, in each case without having served anything; and when it is up it runs what that file describes and serves exactly the addresses that its services ask for, each once and with the routes of its service.',
  'all lists of arguments, all configuration files, all machines (which addresses can be bound, given those already bound), all orders of the maps of the configuration',
  'the command lines, files and machines are unbounded, and a start binds addresses one after the other in an order that is not fixed',
  ['cmd/main.go: main', 'pkg/service/service.go: NewFromConfigs', 'pkg/service/http.go: NewHttp, createServer'])

p('Answers from indexes that give their matches in any order',
  "Whatever order SQLite gives the rows in (the program asks for none), a list request shows, from the asked offset on and at most the asked limit of them, records that satisfy all that is asked of the indexes, none of them twice, and leaves none out; an object request answers with such a record, and with 'not found' only if there is none.",
  'all data, configurations, requests, orders of the maps, orders in which SQLite gives the rows of each statement, and databases left by killed starts',
  "The order of the rows of a statement without ORDER BY is SQLite's choice and can change with its version, the statistics and the query; tests see one order.",
  ['pkg/input/record/join.go: JoinPositionIterators', 'pkg/index/sqlite.go: GetRecordPositions', 'pkg/index/fts5.go: GetRecordPositions', 'pkg/output/json_array.go: Handle', 'pkg/output/json_object.go: Handle'])

p('Everything that was opened is closed when the program ends',
  'When the program ends after a signal, it closes everything its components have opened: the databases and files of the indexes, then, for each input, the watch, the watcher and the file; everything once, whatever the order of its maps, and a call that fails keeps nothing else from being closed.',
  'all configurations, orders of the maps of components, and sets of closing calls that fail',
  'Which calls fail and in which order the maps are visited differs from run to run; tests close single components that close without an error.',
  ['cmd/main.go: main', 'pkg/input/input.go: Close', 'pkg/index/index.go: Close', 'pkg/output/output.go: Close', 'pkg/input/csv.go: Close', 'pkg/input/json.go: Close', 'pkg/input/xml.go: Close', 'pkg/index/sqlite.go: Close', 'pkg/index/fts5.go: Close', 'pkg/index/wildcard.go: Close'])

p('Messages about the progress of indexing',
  'While an index is built from a data file, the log tells for records that are being read their position and a percentage from 0 to 100; neither goes back, messages are more than a second apart, and whenever a record is read there was a message at most a second before. Without a known size, or for an empty file, there are none.',
  'all sizes, all sequences of times and positions of records in a file, and every rounding of floating-point numbers that IEEE 754 allows',
  'The times at which records are read differ from run to run, and the percentage goes through floating-point numbers for any size of file.',
  ['pkg/util/progress.go: TrackProgress', 'pkg/index/map.go: addValuesToIndex', 'pkg/index/wildcard.go: createIndex'])

p('XPath expressions select what they say',
  'A path in the configuration of an XML input (steps with names or *, from the node, from its root or from anywhere in it, with conditions on attributes and children) selects exactly the elements that it leads to, each once, and in the order of the document unless it begins with // and has several steps. string() of a path that keeps this order gives the text at the first place; boolean() of a path gives whether there is a place, count() their number. The values of records are made of these. As the expression of the records, such a path with conditions on attributes only gives the elements that it leads to from the top of the document. A path alone is the value of a property only with a string parser.',
  'all expressions of this syntax, all nodes, and all well-formed documents',
  'Tests try a few expressions on a few documents; the claim is about every expression and every shape of document, for example elements nested in elements of the same name.',
  ['pkg/input/xml_config.go: validate', 'pkg/input/xml_record.go: getAllValues, handleNodeIteratorValue', 'docs/schema/inputs/xml.yaml'])

p('Added components leave the others alone',
  'Adding parsers, inputs, indexes, outputs or services to a configuration does not change what is there: the configuration stays accepted if the new components are well formed and have names of their own, the program without the additions starts whenever the one with them does, and every service of the smaller configuration answers every request in the same way in both programs. The names of the additions must not be those of the built-in parsers or of the default index.',
  'all accepted configurations, all additions, all data files, all orders of the maps of both configurations, all requests',
  'Tests run single configurations; the claim compares the answers of two programs to every request, for every way to extend a configuration.',
  ['cmd/main.go: main', 'pkg/config/config.go: NewConfigFromYamlFile, Validate', 'pkg/output/json_common.go', 'pkg/output/output.go: NewFromConfigs', 'pkg/service/http.go: NewHttp'])

p('A map index changes no answer',
  'A map index is only a faster way to find what a full scan finds: when map indexes of a configuration are replaced by full scans of the same name, the configuration stays accepted, the program still starts, and every service gives the same response to every request. The inputs of these indexes must have increasing positions (CSV files always have), and relationships that are looked up in these indexes must be for values that are not arrays or objects.',
  'all accepted configurations, all choices of map indexes, all data files, all orders of the maps of both configurations, all requests',
  'Tests compare single searches; the claim compares the complete responses of two running programs, with their filters, pages, sorting and nested relationships, for every configuration and every file.',
  ['pkg/index/map.go: NewMap, GetRecordPositions', 'pkg/index/noop.go: GetRecordPositions', 'pkg/output/json_array.go: Handle', 'pkg/output/json_object.go: Handle', 'pkg/output/json_common.go: loadRelationships, getFilteredRecordPositionsPerIndex', 'cmd/main.go: main'])

p('Parsers read what their declarations say',
  'In the running program, the parser of each name reads texts as the declaration of that name in the configuration says, or as documented for the built-in names: texts unchanged or converted from the given charset, integers in decimal without the ignored characters, numbers with the declared decimal separator, booleans from the lists of true and false values, and arrays whose elements are the pieces between the delimiters, each read by the parser that the split parser names. Everything else is an error, never another value.',
  'all accepted configurations, all orders of their maps, all declared and built-in parsers, all texts',
  'Tests build single parsers by hand; the claim is about every parser that a configuration file can declare, with the settings it has after loading, and about every text.',
  ['pkg/parser/parser.go: NewFromConfigs', 'pkg/parser/integer.go: Parse', 'pkg/parser/float.go: Parse', 'pkg/parser/boolean.go: Parse', 'pkg/parser/string.go: Parse', 'pkg/parser/split.go: Parse', 'pkg/parser/json.go: Parse', 'cmd/main.go: main'])

p('Defaults written out change nothing',
  'Writing some or all of the documented defaults into a configuration file (settings that were left out, the parsers that need not be declared, the index called "default"), or declaring the components in another order, changes nothing: the file is accepted if and only if it was accepted before, and the program starts with it if it started before, with the same services, each of which answers every request with the same status and body.',
  'all pairs of configurations that say the same once the defaults are written out, all orders of maps, all data files, all requests',
  'Tests check a default or two on single components; the claim is about every combination of defaults that is left out or written out, and about everything the whole program answers.',
  ['pkg/config/config.go: NewConfigFromParsedConfig, addDefaultConfigs, Validate', 'pkg/input/csv_config.go: Validate', 'pkg/input/xml_config.go: Validate', 'pkg/index/sqlite_config.go: Validate', 'pkg/output/json_array_config.go: Validate', 'pkg/output/relationship/config.go: Validate', 'pkg/service/http_config.go: Validate'])

p('How the data is written does not matter',
  'Two sets of data files that hold the same data, in the same order, give the same program: it starts on one if and only if it starts on the other, with the same error if it does not, and every route of every service answers every request in the same way. Quotes around cells, line ends, blank lines, spaces, the way characters and numbers of JSON are written, and everything in an XML document that is not in a record can be different.',
  'all accepted configurations without full-text, SQLite or wildcard indexes, all orders of maps, all pairs of data files with the same contents, all requests',
  'Tests read one spelling of a file; positions of records (bytes in the file) flow through indexes, sorting, joins and paging, and no sample shows that none of them reaches an answer.',
  ['pkg/input/csv.go: Get, IterateAll', 'pkg/input/json.go: Get, IterateAll', 'pkg/input/xml.go: Get, IterateAll', 'pkg/index/map.go: NewMap, GetRecordPositions', 'pkg/index/noop.go: GetRecordPositions', 'pkg/input/record/join.go: JoinPositionIterators', 'pkg/output/json_array.go: Handle', 'pkg/output/json_object.go: Handle'])

p('Other parameters and their order do not matter',
  'A running service answers two requests for the same path in the same way (status, headers and body) if their query strings give the same first values to the parameters that the outputs behind its routes look at: the declared parameters, and the limit and offset parameters of lists. Other parameters, further values of a parameter, the order of the parameters, and the way they are written in the URL change nothing.',
  'all accepted configurations, all programs started from them, all services, all pairs of requests, all orders of maps',
  'Tests send a few query strings; the claim is about every parameter that a client, proxy or tracker could add, in every order, for every configuration.',
  ['pkg/service/http.go: getParams, getHandlerFunc', 'pkg/output/json_array.go: Handle, getLimit, getOffset, getFiltersPerIndex', 'pkg/output/json_object.go: Handle, getRouteFiltersPerIndex'])

p('Only GET requests are served, and only their URL matters',
  'A running service answers every request whose method is not GET (HEAD, POST, PUT, DELETE, ...) with status 404 and the JSON error that no route was found, whatever the URL. What it answers to a GET request depends on the URL only: neither the content type nor the body of the request matter.',
  'all accepted configurations, all programs started from them, all services, methods, content types, bodies and URLs',
  'Tests try a few methods on a few routes of hand-made outputs; the claim is about every configuration, and rests on no output taking a payload.',
  ['pkg/service/http.go: getMatchingRoute, getPayload, getHandlerFunc, sendErrorResponse', 'pkg/output/json_array.go: ExpectedPayloadType', 'pkg/output/json_object.go: ExpectedPayloadType'])

p('No object in a response has two members with the same name',
  'Whatever the data files hold (JSON documents with the same name twice in an object, at any depth; CSV files whose columns have the same name; XML properties with the same name; relationships named like properties; JSON texts inside of cells), every response of a running service that has a body is a JSON text in which no object has two members with the same name, so that it means the same to every client. With status 200 it stands for the data that the output gives, as long as its texts are valid UTF-8.',
  'all accepted configurations, all data files, all programs started from them, all services and requests',
  'Unbounded data files, nesting and relationships; tests look at well-formed documents.',
  ['pkg/input/json_record.go: All', 'pkg/input/csv_record.go: All', 'pkg/input/xml_record.go: All', 'pkg/parser/json.go: Parse', 'pkg/output/json_common.go: loadRelationships, getDataFromPosition', 'pkg/output/json_array.go: Handle', 'pkg/output/json_object.go: Handle'])

p('The same request gets the same bytes',
  'The bytes of a response do not depend on the orders in which Go visits maps: the parameters of the output, the filters of the indexes, the relationships at every depth, and the members of the objects that are written. In two runs with any such orders the same request for a list gets the same bytes, and the same request for an object gets the same bytes or is told in both that there is no such record.',
  'all outputs, relationships of any depth, data, requests and pairs of orders of visit',
  'Go chooses the orders at random on every visit; a test sees a few of them.',
  ['pkg/output/json_array.go: Handle, getFiltersPerIndex', 'pkg/output/json_object.go: Handle, getRouteFiltersPerIndex', 'pkg/output/json_common.go: loadRelationships, getFilteredRecordPositionsPerIndex'])

open('/verif/properties.jsonl','w').write(''.join(json.dumps(x,ensure_ascii=False)+'\n' for x in P))
print(len(P))
for x in P: print(x['id'],x['title'])
