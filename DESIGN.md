# Formal model of rodb in Lean 4

This file says what is modelled, how each property of `properties.jsonl` is stated and proved, what is trusted, and where the code disagrees with a property.

## Layout

| directory under `lean/Verif/` | content |
| --- | --- |
| `Model/` | executable model of the Go code, function by function; each definition cites file and lines in `/repo` |
| `Spec/` | small independent vocabulary used in the theorem statements (substring, intersection, window, ...) |
| `Proofs/` | helper lemmas, invariants, refinement proofs |
| `Props/` | one theorem (or a small group) per property, with an `example` beside it showing that the hypotheses are met by a concrete case |

## Trusted base

* The Lean 4.33.0 kernel.
* Axioms: only `propext`, `Classical.choice`, `Quot.sound` (checked with `#print axioms`; see the end of this file). No axiom is added, there is no `sorry`, no `native_decide`, no `bv_decide`.
* The reading of the Go source: the model is written by hand from `/repo`. Every definition cites the lines it models and lists its simplifications.
* Behaviour of the libraries rodb calls, as stated where they enter the model: `os.File` (ReadAt/WriteAt/Seek), `encoding/binary`, `bufio.Reader`, `encoding/csv`, `encoding/json`, xmlquery/xpath, `strings.ToLower`, `sort.Sort`, SQLite, `net/http`, `regexp`. Wherever possible they are *parameters* of the theorems (the theorem holds for every function satisfying a stated contract) rather than definitions.

## General modelling choices

* Go results `(value, error)` are `Except Fail`, `Fail` being `err` (an error value) or `panic` (a Go run-time panic); both keep the state reached so far in stateful code.
* `nil` pointers are `Option`.
* Slices are lists. Aliasing: `Stream.Get` may return a view of the buffer; its callers only read the result before the next write, so a copy is equivalent.
* File offsets are `Nat`; positions are `Int` serialized as two's-complement 64-bit words. Theorems that need no overflow assume the total size stays below 2^63 (hypothesis visible in the statement).
* Loops that follow on-disk pointers take 2^63 as fuel (offsets are `int64`, so a longer chain visits a cell twice); running out of fuel is reported as a distinct failure `diverge`. The theorems about well-formed files show that it never happens.
* Go `map` iteration order is modelled by an arbitrary list order (a permutation); theorems quantify over all orders.
* Goroutines and crash points are modelled as explicit step sequences / prefixes of the write log.

## Per property plan

| id | what is modelled | how it is proved |
| --- | --- | --- |
| C01 | `Stream` with file, buffer, sizes, write log | refinement of a flat byte list, induction on the operation list |
| C02 | same, plus reopening | corollary of the refinement invariant after flush |
| C03 | big-endian codecs of nodes, positions, metadata | inductive lemma on k-byte big-endian words |
| C04, C05, C07 | byte-level tree insertion and search | three-layer refinement: bytes -> typed cells (ghost ownership map) -> functional trie -> substring specification |
| C06 | same | false of the code: theorem that the empty query always returns nothing and a witness; partial: all non-empty queries |
| C08 | create, flush, load | loaded roots represent the same forest |
| C09 | write log of createIndex, crash = prefix of the log | false of the code (metadata marked complete before the last flush): witness; partial: every crash before the completion write is refused |
| C10 | AssertValid | iff characterisation, for files of a build and for any bytes (Spec/WildcardFile); false for renamed/reordered properties and same-second edits: witnesses |
| C11 | LoadMetadata on arbitrary bytes | false (negative root count): witness; partial: total whenever the count is non-negative; exactly which bytes panic: `C11_panics_iff_partial` |
| C12 | GetRecordPositions + join | from C04 and C20, for every visiting order |
| C13 | addValueToIndex, createIndex | induction on records; failed build leaves completed = 0 in the file |
| C14-C17, C19 | Map, Noop | induction on records, join theorem |
| C18 | Noop iterator with a ghost "open" flag | false (undrained iterator leaks): witness; partial: closed iff drained or failed |
| C20-C22 | JoinPositionIterators as a state machine | loop invariant; error propagation by cases |
| C23-C26 | Compare, Less over Go values incl. IEEE classes | case analysis; contract of sort.Sort as hypothesis; witnesses for the false part |
| C27-C29 | GetSubValue, JSON/XML lookups | structural induction; witness for the negative index |
| C30-C35 | parsers | induction on texts; cyclic split witness, and exactly which parsers end (C34_exactly_partial); decoder interleavings |
| C36-C41 | buffered reader, CSV, JSON inputs | invariant over arbitrary refill schedules; interleavings with the mutex; exactly which files can be scanned with an ignored first row (C39_first_row_partial) |
| C42-C49 | outputs | loop invariants; composition with index theorems |
| C50, C51 | `handleRequest` as a list of calls on the response writer, JSON encoder by contract | case analysis; C50_false (NaN), C51_false (panic) |
| C52 | `getMatchingRoute` | induction on routes |
| C53, C54 | `createPathRegexp`, a compiler of Go's regexp syntax (`compilePattern`), `Matches` as independent meaning of expressions, `FindStringSubmatch` by contract | invariant of the pattern compiler, induction on the placeholders; exactly what each placeholder receives (C53_reported_partial: captures of all groups) and exactly which paths are literal (C54_exactly_partial: every match can be made shorter than a pattern with special characters) |
| C55 | servers, `main` and the signal goroutine as a transition system | invariant over reachable states; C55_false by an execution |
| C56 | `GetAddress` | both orders of the map |
| C70 | `createRoute` | inversion of a successful creation |
| C71 | parser patterns against the parsers of `Model/Parser.lean` | filter lemmas on UTF-8 texts; C71_false ("+5"); floats: `DecimalText`, what the pattern matches the parser accepts or overflows, and conversely up to sign, exponent, separators (C71_float_false, C71_separator_false) |
| C68, C69 | the whole path from request to response | composition of C42/C47, C52, C53 |
| C57 | `NewConfigFromParsedConfig`, `addDefaultConfigs` | induction on the lists of components and of defaults |
| C58 | every `Validate` of the configuration; `main` with all the constructors, the libraries as parameters | inversion of a successful validation (mutual induction for XML properties and relationships), then composition of the constructors; C58_opens, C58_on_files_partial: on the files of the machine an input opens exactly when its file is there (Model/Inputs); C58_graphql_false, C58_route_false for every machine |
| C59 | `SqlitePropertyConfig.Validate`, `strings.ToUpper` on ASCII | all spellings character by character; C59_false for all spellings of rtrim |
| C72 | `Validate` on reordered maps, also those inside of outputs | induction on permutations; the maps inside by C76 (well-formedness does not look at the order) |
| C73 | `JsonArrayConfig.Validate` | inversion; C73_false by a configuration; exactly when from C77 |
| C74 | all `Validate` with `os.Stat` as parameter | every step closed under "no panic"; C74_false for every path that cannot be looked at; exactly which panic by comparing with an environment where the files are there |
| C75 | the loops that refuse repetitions | induction on lists, mutual induction on nested ones |
| C76 | all `Validate` functions | equivalence of success with `WellFormed` (Spec/WellFormed), component by component, mutual induction on nested ones |
| C77 | all `Validate` functions | the result equals the declared component with the defaults of docs/schema filled in |
| C78 | start-up (`NewFromConfigs` of all kinds) | `Running` (Spec/Running) relates the parsed file to the running maps; from C77 and the order-independence of maps |
| C79 | configuration + start-up + service + outputs + indexes | composition of C76, C78, C44, C68, C69: hypotheses on the file, the records of the opened input and the request only; with relationships (Spec/RelatedData: `WorldOf`, `Fits`), composition with C48 |
| C80 | `openIndex`, the storage found at the start | `DiskFor` (Spec/Storage); composition of C08, C12, C44, C62, C63, C81 into `IndexesFind`, the hypothesis of C79 |
| C60 | `SanitizeIdentifier`, all SQL texts of the index; SQLite's tokenizer and the grammar of the statements that occur (`Model/Sql.lean`) | the quoted form is one token (induction on the name), texts composed token by token; C60_false (NUL) |
| C61 | the names of tables, columns and SQL indexes | cancellation in the formats, up to ASCII case; C61_false ("a"/"b_c" and "a_b"/"c"), C61_case_false by execution of the model |
| C62 | `NewSqlite`, `createIndex`, metadata functions as programs over a database state; death after any number of statements; any list of earlier starts with any indexes | Hoare triples with a crash condition; invariant: complete metadata implies a completely filled table |
| C63 | `GetRecordPositions`; rows in any order, failure while reading as a parameter | the condition on rows is the condition on records, permutation; witnesses for the false parts |
| C81 | `NewFts5`, `createIndex`, `GetRecordPositions` of the full-text index; what FTS5 matches as a parameter | same invariant as C62 over histories that mix both kinds of indexes; rows correspond to records; C81_malformed_false, C81_type_false by execution of the model |
| C82 | `encoding/csv` as a state machine over bytes (`Model/CsvText.lean`), as csv.go configures it | `CsvText` (Spec/CsvText): the texts of a table by RFC 4180; induction over the text gives the rows of C37; errors by the same induction up to the bad line |
| C83 | `Model/Inputs.lean`: the inputs as `NewCsv` and `NewJson` open them on the files of the machine, with autodetected columns | `CsvFile`, `RowReads` (Spec/Files): columns, rows and objects of a file; C82 and C64 give the records of C79, whose conditions become conditions on the objects |
| C84 | `encoding/json`, the encoder (`Model/JsonText.lean`), over the bytes of the texts, with sorted keys | `JsonText` (Spec/Json): the grammar of RFC 8259 as an inductive relation between values and texts; induction over the value |
| C85 | `encoding/json`, the decoder (`Model/JsonText.lean`): scanner, texts, numbers, nesting limit, `Decoder` and `Unmarshal` | induction over the derivation of `JsonText` for reading, over the fuel of the reader for the converse; C40 gives the scan |
| C86 | C79 with the JSON input of `Model/Inputs.lean`, its decoder and the encoder of the responses | `JsonData` (Spec/JsonFiles); C85 and C64 give the records of C79, C84 the contract of the encoder |
| C87 | C79 with relationships, on the files of `Model/Inputs.lean` | `ShownWith` (Spec/RelatedObjects): related, sorted and nested objects, on the objects of the files; the records of C83 and C86 are a world of C79 (`WorldOf`), `Loaded` implies `ShownWith` by induction on the depth, sorts by C24 |
| C88 | `Model/Watch.lean`: one input file as a transition system: opening, adding to the watcher, its events, other processes that write or replace the file | `Serving`, `InPlace`, `NoticeWaits` (Spec/Watch); invariant over all runs: the file is open, watched and at its path, and unchanged unless a notice waits; the notice stays among the first events until it is taken |
| C89 | C87 with the wildcard, SQLite and full-text indexes of `openIndex` on the storage found at the start | `FoundIn`, `StoredOn` (Spec/StoredFiles): what the indexes find among the objects, what is on disk; the records of the files are a disk of C80 (`DiskFor`), whose `finds` is `FoundIn` on the objects |
| C90 | `handleRequest` on the routes of a running program, with `getLimit`, `getOffset`, `arrayFilters`, `objectFilters` | `BadPaging`, `Unreadable` (Spec/Refused); parsers of parameters are primitive and return; induction over the parameters in any order of visiting |
| C91 | `os.ExpandEnv` on the text of the configuration file (Model/Expand, from Go's os/env.go) | `written`, `meant` (Spec/Expand): a text as pieces; induction over the pieces. For other `$`, a negation by an invariant of the loop |
| C92 | from the tree of a YAML document to the configuration: the `UnmarshalYAML` functions, the `yaml` tags and what yaml.v2's strict decoding does with them (Model/Yaml) | `Describes` (Spec/Yaml): a declarative description after docs/schema; `documentOf`, `documented` (Spec/YamlWritten). A class of decoders that agree with what a node says, one instance for each decoder; mutual inductions for XML properties and relationships |
| C93 | `NewConfigFromYamlFile` (Model/ConfigFile): file, environment, parser (a parameter), decoding, validation | `FileDescribes`, `Filled` (Spec/ConfigFile); composition of C91, C92, C76 and C78; panics by a compositional argument over the decoders |
| C94 | the life of the program after its start (Model/Main): servers that may fail, `Wait`, `Close`, the signal, the exit status | `Comes`, `SomeServerFailed` (Spec/Main); invariant over all sequences of steps |
| C95 | as C94 | `EndsWith` (Spec/Main): a bound for the number of steps, and the process is gone where no step is possible; **false** with a second server (`C95_false`); exact condition `Noticed` (Spec/MainExact) |
| C96 | as C94 | `EndsWith`; a measure that decreases with every step, and no deadlock; **false** with several services and a failure (`C96_false`); exact condition `WillBeNoticed` (Spec/MainExact) |
| C97 | as C87 | corollary of C87: windows of a list of the same size cover it, `RelatedLists` one after the other |
| C98 | IterateAll of the XML input; the decoder of encoding/xml and the stream parser of xmlquery from raw tokens on (Model/XmlInput) | `XmlContent` (Spec/XmlInput) relates tokens and nodes, `recordsIn` are the outermost matching elements; induction on the document with the invariant that nothing that was read and kept matches |
| C99 | Get of the XML input, with the state that the parser keeps | the same invariant for any history; **false** for documents that are not `Straight` (`C99_false`, all of them) and for expressions with a path (`C99_path_false`) |
| C100 | C79 with the XML input of `Model/Inputs.lean`: parsers and property trees of the configuration, the XPath library, the fetches before | `XmlInputData` (Spec/XmlFiles), on an inductive reading of a record (`XmlReads`); C98, C99 and the record lemmas give the records of C79; **false** outside of `Straight` documents (`C100_false`) |
| C101 | The lexer of encoding/xml on the bytes of a file (`Model/XmlText.lean`): names, attributes, entities, character references, CDATA, comments, instructions, directives, line ends | `XmlWritten` (Spec/XmlText): an inductive grammar of the ways to write a tree; the lexer is steady (`xmlLexer_steady`) and gives, on a written tree followed by anything, tokens whose content is the tree (`XmlWritten.lexed`); then C98 |
| C102 | C101 and the scan of C98, on a file that is cut inside of its root element | what follows a token does not change it, except for the last text (`xmlToken_append`), so the tokens of the part are tokens of the file; an invariant of the parser (`Tracks`: its open elements are those of the document); **false** for a cut before the root element (`C102_false`) |
| C103 | The scan of C98 with any record expression, a predicate on the document so far | `seenNodes` (Spec/XmlExpr): a recursion over the tree that asks the expression about the tree so far; the parser follows it (`XmlContent.seen`); for expressions on chains of names and attributes it gives `recordsAt`; **false** for conditions on what is inside of an element (`C103_false`) |
| C104 | The model of C64 and of the JSON decoder, on the start of a file | An automaton that counts the brackets outside of strings: every proper start of an object is inside of a bracket (`object_around`), on which the decoder fails at the end of the file; induction over the objects of the file |
| C105 | The model of C37 and C82, on the start of a file | `readItem_cut`: a row ends at some byte, whatever follows, or the bytes end first; induction over the rows of the shorter file. A cut inside of the last value is not noticed (`C105_cut_not_noticed`) |
| C106 | `Model/Url.lean`: the target of a request as `net/http` and `net/url` read it, up to Go 1.16 (a semicolon separates parameters) and later | `UrlText`, `QueryText`, `TargetText` (Spec/Url): ways to write; induction over the text; **false** for refusing a query that cannot be read: `Query()` drops such parameters without an error (`C106_false`) |
| C107 | `Model/DamagedIndex.lean`: the searches of C04 and C05 once more, on any file: offsets and lengths are signed numbers of 64 bits, as read from the file | `Reachable`, `SiblingsLead` (Spec/DamagedIndex): nodes seen so far are distinct and in the file, so that there are fewer than bytes; each round of `GetSequence` uses up a byte of the search; **false** with loops and negative lengths (`C107_false`) |
| C108 | No new model: `loadConfigFile`, `start`, `serveTarget` together | Composition of C93, C78, C89 and C106; partial where C79 and C89 are |
| C109 | No new model: `serveTarget` for every target; the routes that can always be answered are in `Spec/Answered.lean` | Composition of C51, C53, C89, C90 and C106: a case distinction on the target, the routes and the parameters; false in general (C51_false) |
| C110 | `Model/Concurrent.lean`: the handlers of the outputs as sequences of calls of `Get` (`arraySteps`, `objectSteps`), `Get` of the CSV and JSON inputs as small steps on the shared reader (`csvGet`, `jsonGet`), the handlers of any number of requests with the mutexes of the inputs (`Handling.Step`) | The sequences perform what `Handle` computes for every result of `Get`; invariant of all handlers: who holds a mutex is in the middle of its own call, everything else is outside; progress: the holders can finish, then the others one by one. With XML inputs: every handler asks for positions of records only, and `Get` of an XML input brings the shared parser from one state in which all records can be fetched to another one (`Proofs/ConcurrentAsks.lean`, `Proofs/ConcurrentXml.lean`) |
| C111 | No new model: `createPathRegexp` and `compilePattern` of Model/Service.lean and Model/Regexp.lean; how expressions are written is a grammar in `Spec/RoutePaths.lean` | Induction on the grammar: the parser of patterns reads each part, in any state in which one may begin; the placeholders are expanded to groups; the two anchors belong to the first and the last alternative |
| C112 | `IndexDecl.openOn`, `openIndexes`, `startOn`, `startKilled`, `afterProgramRuns` (Model/Restart.lean): the indexes are opened one after the other, each on the disk that the one before has left, and read their database at every search | Invariant of the disk: an index finds either nothing of its own or exactly what it would build; opening one index builds or leaves its own and does not touch those of the others; a killed start leaves at most one index half built, whose file or table no later start accepts or changes; what a start on other data files leaves, complete or not, describes another size or time, and a later start that finds it fails; induction on the indexes and on the starts; permutations for map orders |
| C113 | `Model/Pool`: the pool of `database/sql` (at most two free connections are kept, a new one is opened when none is free), with one database for a file and one database per connection for `:memory:`; `GetRecordPositions` of `sqlite.go` and `fts5.go` as steps (quoting of each name, query, each call of the iterator), any interleaving. The answers of one query are those of `Model/Sqlite` | invariant on every search: what is left of its steps, from the state it is in, gives what the whole search gives on a database that satisfies D, and every connection it may be given sees such a database; D is 'holds the index' for files, 'is new' for what is left of `:memory:` when the one connection that is not new is in use or was closed. Number of connections that are not new: never grows |
| C114 | `afterProgramRuns`: any sequence of starts, each with its own data files and killed anywhere or not at all, on one storage | the header of a wildcard file and the metadata row of a database hold the size and the second of the input they were built for, an invariant of all starts; opening an index compares them with the input of the new start |
| C115 | The outputs and services of C42-C60 on two environments, one of which may fail | A simulation between the two environments: joined iterators, pages, records and relationships of the failing one are those of the other one up to the first error, which every function passes on; induction on the depth of relationships and on the joined lists |
| C116 | `startKilled`, `afterProgramRuns` of C112, the outputs and services of C115 | An invariant of the disk: each wildcard file is complete, absent, a prefix of the writes that build it, or of another data file and refused. Beside the machine a twin without the cut files: opening an index on both gives, by C09, searches that agree up to an error (C115 applied to the whole program); C112 applied to the twin |
| C117 | `newSqlite`, `newFts5` with `sqlExec` (C60, C62); `startOn` of C112 | A successful build is taken apart statement by statement: the statement that creates the table was accepted, and each record was inserted. The other direction is C62. For the program: the metadata table of an index stays absent while other indexes are opened. For histories: whatever starts leave behind, the metadata never say that the build has ended (an invariant of every statement of a start) |
| C118 | Model/CommandLine.lean: pflag's parsing for the two flags, logrus.ParseLevel, loading, components, servers one after the other | induction over the arguments against an inductive grammar; induction over the services; C76, C77, C78, C93 for the configuration |
| C119 | The join, the outputs and the SQLite and FTS5 indexes as for C20, C45, C63 and C81; SQLite's order is a parameter (SqlLib.plan). | The join on lists in any order hands out elements of the first list that are in all the others (induction on the first list); one list is handed out as it is. Then as for C45, and for a running program as for C79 and C80. |
| C120 | What the constructors open, the Close functions of the components and of their lists, the deferred functions of main; which calls fail is a parameter. | Each Close is a list of calls up to the first failure; the state after it by induction on the list; then membership in the two lists of calls. |
| C121 | TrackProgress and its closure; float64 as rational numbers with a rounding function. | Induction on the calls, with the time before which nothing is shown as the invariant; monotonicity of the rounded quotient. |
| C122 | Parser and evaluation of the XPath expressions of the documentation, plugged in as the XPath library of `Model/Inputs.lean` (`xpathLib`). | Evaluation with places (numbers of children), by induction on steps and nodes; the parser is inverse to the written form; records by C103. |
| C123 | `start` on the files of the machine (`Model/Inputs.lean`), for a configuration and a larger one. | Every lookup in the smaller program is of a name that is known (C58, C76), so both find the same; outputs by induction on relationships, XML records by induction on properties, split parsers along chains of names without repetition. |
| C124 | `start` on the files of the machine (`Model/Inputs.lean`), for a configuration and the one without the chosen map indexes. | C15 for single searches; every search of a handler asks a map index for one of its properties on its input (C76) and for scalars; equality of the environments of the outputs by induction on relationships. |
| C125 | `start` of `Model/Startup.lean` with `Model/Parser.lean`. | Composition of C78 with C30, C32, C33 and C65; that the pieces are read by the function of the named parser, by the chains of names of C123. |
| C126 | `loadConfig` and `start` (`Model/Config.lean`, `Model/Startup.lean`). | Well-formedness of each component before and after completion (C76), the components of the loaded configuration are those of the explicit one (C77), hence the loaded configurations differ by the order of their maps, on which no answer depends (as in C124, with no index replaced). |
| C127 | `start` on files (`Model/Startup.lean`, `Model/Files.lean`). | A relation between the positions of the two sets of files that keeps their order, kept by scans, map indexes, joins, sorting, paging and relationships, so that the routes are equal functions. |
| C128 | `serveTarget` and `start` (`Model/Url.lean`, `Model/Service.lean`, `Model/Startup.lean`). | The outputs read their parameters only by these names, so that the maps of parameters, which agree on them, give the same answer; induction over the changes of the query string. |
| C129 | `serveTarget`, `getMatchingRoute` and `start` (`Model/Url.lean`, `Model/Service.lean`, `Model/Startup.lean`). | The outputs of a running program (C78) take no payload, so that no route matches another method and no body is read. |
| C130 | Everything from the JSON decoder, the parsers and the records to the outputs and the responses (`Model/JsonText.lean`, `Model/Parser.lean`, `Model/Path.lean`, `Model/Inputs.lean`, `Model/Output.lean`, `Model/Service.lean`). | Every value is built with map assignments only; by induction over the texts, the properties of an XML input, the relationships and their nesting. With C84 for the text. |
| C131 | `handleArray`, `handleObject` and `loadRelationships` (`Model/Output.lean`) for two environments that differ in the order of visit; `encodeJson` (`Model/JsonText.lean`); `start` (`Model/Startup.lean`) and `handleRequest` (`Model/Service.lean`) for two such orders. | Both answers hold what C48 says, which is the same; they are written in the same way by C84, since no name appears twice (C130). The two programs have related services, routes and outputs (`Proofs/Twins.lean`), whatever the order in which the maps of the configuration are instantiated. |
| C64 | CSV and JSON lookup | lookup in the record is lookup in its full conversion; structural induction on values |
| C65 | float parser | text replacement proved equal to the specification; `ParseFloat` is a parameter |
| C66 | XML primitive values | case analysis over expression results and parsers, for all documents |
| C67 | parser validation | validation equivalent to an independent statement of completeness |

Nothing in the list is declared not expressible. Parts of the code that are not modelled: the YAML parser (text to tree), logging (but for the messages about progress, C121), GraphQL (not implemented in the code), the SQLite engine beyond the statements that the index sends (atomic statements; journal and page level are not modelled), what FTS5 matches, XPath expressions beyond those of C122, charset tables, TLS/sockets.

The model of SQLite (`Model/Sql.lean`) is part of the trusted base of C60-C63, C80 and C81: tokens, the grammar of the statements that occur (including `CREATE VIRTUAL TABLE .. USING fts5` and `MATCH`), tables as lists of rows, names compared up to ASCII case, collations. Parameters of it, about which nothing is assumed unless a theorem says so: the order of rows, failures while rows are read, equality of integers and floats, and what FTS5 matches for a tokenizer, columns and an expression. Left out: the shadow tables of FTS5, arguments of tokenizers, limits on sizes, and that go-sqlite3 has FTS5 only with a build tag.

Connections (C113): the pool of `database/sql` (`Model/Pool.lean`) is written from its source with the settings rodb leaves at their defaults (no limit of open connections, two free ones kept, no maximal age); a DSN is either a file, whose database all the connections share, or `:memory:`, with a database for each connection (this is how mattn/go-sqlite3 documents it). Readers of a file do not block each other. Disagreement with the documentation: its example uses `:memory:`, with which searches at the same time fail and can lose the index.

Errors (C115, C116): a search that fails gives its positions up to a point and then an error, a record that cannot be read gives an error at its fetch. Outside are failures that the code does not see: SQLite errors in the middle of the rows (`C63_failure_false`), a data file that is cut while the program runs so that a CSV record is shorter (C105), and the operating system returning wrong bytes.

Changed data (C114): an index that is kept on the machine remembers of its input only the size and the second of the modification time. Disagreement with the property: a data file that is changed without a change of these (as by a program that writes records of fixed size twice in one second, or that restores the time) is served from the old index (`C114_false`).

The model of pflag 1.0.5 (`parseArguments`) and of `logrus.ParseLevel` (`isLevel`) in `Model/CommandLine.lean`, modelled from memory of their source, is part of the trusted base of C118; `strings.ToLower`, the order of `range` and which addresses can be bound are parameters there, arguments are valid UTF-8, and a server counts as serving from the moment when it is bound.

The model of `net/url` (`Model/Url.lean`) is part of the trusted base of C106; targets that do not begin with a slash (absolute URLs, `*`) and paths that are not UTF-8 are not modelled, and neither is the limit on the number of parameters of the latest Go releases.

The model of `encoding/csv` (`Model/CsvText.lean`) is part of the trusted base of C82 and of what follows from it: it is written from the source of that package for the settings rodb uses (Comma, FieldsPerRecord; not LazyQuotes, TrimLeadingSpace or Comment), for delimiters of one byte, which validation requires. Byte order marks are not removed, as in the library.

The model of `encoding/json` (`Model/JsonText.lean`) is part of the trusted base of C84 to C86 in the same way: it is written from the source of that package (Go 1.16), without the options rodb does not use. Parameters are `strconv.ParseFloat` and the shortest decimal text of a finite float; the latter is assumed to be a JSON number (`FormatContract`). Simplifications: -0 is not distinguished from 0, the record of the document `null`, whose map is nil, is not distinguished from that of `{}` (the program writes it as `null`; it cannot panic, as every relationship matches a property, C76), and the message of the encoder's error does not name the value.

What the operating system and fsnotify promise about notices is the step relation of `Model/Watch.lean` (C88): a write to the watched file while it is at its path sends an event with the operation `Write`, possibly merged with the one before; no other change does. A scan is taken to read the file at one moment. The other models take the files as unchanging while the program runs, which C88 justifies for files that are only changed in place.

Configuration files (C92, C93): the parser of yaml.v2 (text to tree, resolution of scalars, aliases, merge keys and tags) is a parameter; its strict decoding of a tree into structures is modelled from its source decode.go as remembered. Simplifications: keys are scalars, given by their texts; the spellings `Null` and `NULL` are left out; errors are reported one at a time. Fields without a `yaml` tag, which the library accepts under their names in lower case, are accepted or refused by a parameter, and their values, which the program does not use, are dropped. A `null` component, parameter, relationship, column, sort, match or route panics at once in the model; in Go it panics a little later, unless another error comes first.

The end of the program (C94 to C96): `net/http` is known by its promises (`Shutdown` makes `Serve` return `ErrServerClosed` and returns when no request is in flight). The deferred functions that close outputs, indexes, inputs and parsers are one step; their errors are only logged by the program. Concurrent fetches of JSON records (C38): the decoder of the library reads any number of bytes at a time and stops when what follows cannot change its answer.

XML inputs (C98 to C102; and C87, C89, C97 on XML files): in C98, C99, C100, C87, C89 and C97 the lexer of encoding/xml (bytes to raw tokens) is a parameter that gives the same tokens wherever it starts (`SteadyLexer`); `xmlLexer` (Model/XmlText.lean), of which this is proved, is the lexer of C101 and C102 and of the examples, modelled from memory of encoding/xml's xml.go: not strict settings, the five entities and any `&` that is not one taken as text, names of ASCII only, no namespaces, no declared charset other than UTF-8. The evaluation of XPath is a parameter, which C122 replaces by a model of the expressions of the documentation (Model/XPath.lean, from memory of antchfx/xpath and xmlquery); the stack of open elements of its decoder (not strict) and `StreamParser.Read` of xmlquery 1.3.6 are modelled from memory of their source, which is not in the sandbox. Simplifications: names have no namespaces, the file is UTF-8 without a declared charset, a record is the element alone (an expression of a column that leaves it, such as `..`, is not modelled), and the nodes that the library drops at the next read are dropped at once. Whether the library also drops the nodes before a returned element, beside it, is left open (`XmlQuery.forgets`, versions of the library differ): all the theorems hold for both. `XPathLib` (compiled expressions, `select`, `eval`, the conversion of a float to an integer) and the history of fetches of each file (`fetchedXml`) are parameters of `Files`.

## Which files are modelled where

Made with `tools/coverage.py` from the citations in `Model/`. The functions in the last column are of three kinds. Accessors, setters and constructors that only copy fields (`Name`, `GetName`,
`Primitive`, `Position`, `ShouldDieOnInputChange`, `SetCompleted`, `NextSibling`, `NewBoolean`, ...) are fields of the structures of the model, used at the places that call them, and so is `ModTime`, which asks the
operating system; `Len` and `Swap`
belong to `sort.Sort`, which is a parameter. `xpathError` only builds the message of an error, and `open` in pkg/input/json.go opens a file that is a list of bytes here. The mocks, `AddSingleSequence`,
`NewPositionLinkedListFromArray` and `getIndexIdentifier` of pkg/index/fts5.go are not called by the program (only by tests, or not at all) and are not modelled. A function that is cited may be modelled
with simplifications: these are in the comment of the definition.

| file | modules under `Model/` | functions that no definition cites |
| --- | --- | --- |
| cmd/main.go | Closing, CommandLine, Main, Restart, Shutdown, Startup | – |
| pkg/config/config.go | Config, ConfigFile, Expand, Yaml | – |
| pkg/config/index.go | Yaml | – |
| pkg/config/input.go | Yaml | – |
| pkg/config/output.go | Yaml | – |
| pkg/config/parser.go | Yaml | – |
| pkg/config/service.go | Yaml | – |
| pkg/index/fts5.go | Closing, Fts5, Indexes, Pool, Progress, Restart, Sqlite, Startup | Name, getIndexIdentifier |
| pkg/index/fts5_config.go | Config, Yaml | – |
| pkg/index/index.go | Closing, Indexes, Output, Restart, Startup | – |
| pkg/index/map.go | Closing, MapIndex, Progress, Startup | – |
| pkg/index/map_config.go | Config, MapIndex, Yaml | – |
| pkg/index/noop.go | Closing, Noop | NewNoop, Name |
| pkg/index/noop_config.go | Config, Yaml | – |
| pkg/index/sqlite.go | Closing, Fts5, Indexes, Pool, Progress, Restart, Sql, Sqlite, Startup | Name |
| pkg/index/sqlite/metadata.go | Sql, Sqlite | – |
| pkg/index/sqlite/open.go | Pool | – |
| pkg/index/sqlite/sanitize.go | Pool, Sqlite | – |
| pkg/index/sqlite_config.go | Config, Yaml | – |
| pkg/index/wildcard.go | Closing, Progress, Restart, Startup, Stream, Wildcard | Name |
| pkg/index/wildcard/metadata.go | DamagedIndex, Go, Wildcard | SetCompleted |
| pkg/index/wildcard/node.go | DamagedIndex, Go, WildcardNode | NextSibling, FirstChild, LastChild, FirstPosition, LastPosition, AddSingleSequence |
| pkg/index/wildcard/position.go | DamagedIndex, Go, Wildcard, WildcardNode | NextPosition, NewPositionLinkedListFromArray |
| pkg/index/wildcard/stream.go | DamagedIndex, Stream, Wildcard | – |
| pkg/index/wildcard_config.go | Config, Indexes, Wildcard, Yaml | ShouldIgnoreCase |
| pkg/input/csv.go | Closing, Concurrent, CsvText, Inputs, Path, Progress, Reader, Startup, Watch | Name, ModTime |
| pkg/input/csv_config.go | Config, CsvText, Inputs, Path, Yaml | ShouldDieOnInputChange |
| pkg/input/csv_record.go | Path | – |
| pkg/input/input.go | Closing, Concurrent, Inputs, Startup | – |
| pkg/input/json.go | Closing, Concurrent, Inputs, JsonFetch, JsonText, Progress, Reader, Startup, Watch | Name, ModTime, open |
| pkg/input/json_config.go | Config, Yaml | ShouldDieOnInputChange |
| pkg/input/json_record.go | Path | NewJsonRecord |
| pkg/input/mock.go | – | NewMock, Name, Get, Size, SetModTime, ModTime, IterateAll, Close |
| pkg/input/record/join.go | Join | – |
| pkg/input/record/mock.go | – | NewMockRecord, NewStringPropertiesMockRecord, All, Get, Position |
| pkg/input/record/path.go | Path | – |
| pkg/input/record/record.go | Join, Value | – |
| pkg/input/record/sort.go | Sort | Len, Swap |
| pkg/input/record/sort_config.go | Config, Sort, Yaml | – |
| pkg/input/xml.go | Closing, Concurrent, Inputs, Progress, Startup, Watch, XmlInput, XmlText | Name, ModTime |
| pkg/input/xml_config.go | Config, Inputs, Path, XPath, Yaml | ShouldDieOnInputChange |
| pkg/input/xml_record.go | Inputs, Parser, Path, XPath, XmlInput | xpathError, Position |
| pkg/output/graphql_config.go | Config, Yaml | – |
| pkg/output/json_array.go | Closing, Concurrent, JsonText, Output, Service, Startup | Name |
| pkg/output/json_array_config.go | Config, Output, Yaml | – |
| pkg/output/json_common.go | Concurrent, Output, Startup | – |
| pkg/output/json_object.go | Closing, Concurrent, JsonText, Output, Service, Startup | Name |
| pkg/output/json_object_config.go | Config, Output, Yaml | – |
| pkg/output/mock.go | – | NewMock, ExpectedPayloadType, ResponseType, Handle, Name, HasParameter, GetParameterParser, Close |
| pkg/output/output.go | Closing, Service, Startup | – |
| pkg/output/parameter/config.go | Config, Output, Yaml | – |
| pkg/output/relationship/config.go | Config, Output, Yaml | – |
| pkg/parser/boolean.go | Parser, Service | NewBoolean, Name, Primitive |
| pkg/parser/boolean_config.go | Config, Parser, Yaml | GetName |
| pkg/parser/float.go | Parser, Service | NewFloat, Name, Primitive |
| pkg/parser/float_config.go | Config, Parser, Yaml | GetName |
| pkg/parser/integer.go | Parser, Service | NewInteger, Name, Primitive |
| pkg/parser/integer_config.go | Config, Yaml | GetName |
| pkg/parser/json.go | JsonText, Service | NewJson, Name, Primitive |
| pkg/parser/json_config.go | Config, Yaml | GetName |
| pkg/parser/mock.go | – | NewMock, NewMockWithPrefix, Name, Primitive, GetRegexpPattern, Parse |
| pkg/parser/parser.go | Closing, Sort, Startup | – |
| pkg/parser/split.go | Parser, Service, Startup | Name, Primitive |
| pkg/parser/split_config.go | Config, Parser, Startup, Yaml | GetName, IsDelimiterARegexp |
| pkg/parser/string.go | Charset, Parser, Service, Startup | Name, Primitive |
| pkg/parser/string_config.go | Config, Yaml | GetName |
| pkg/service/http.go | CommandLine, Concurrent, JsonText, Main, Service, Shutdown, Startup, Url | Name, Address |
| pkg/service/http_config.go | Config, Yaml | GetName |
| pkg/service/mock.go | – | NewMock, Name, Address, Wait, Close |
| pkg/service/service.go | CommandLine, Main, Shutdown, Startup | – |
| pkg/util/bufio.go | Concurrent, Reader | – |
| pkg/util/config.go | Yaml | – |
| pkg/util/fsnotify.go | Watch | – |
| pkg/util/progress.go | Progress | – |
| pkg/util/utils.go | Service, Text | – |

## Checking the citations

`tools/check_citations.py` prints every file and line range cited in the Lean sources with the first and last line of
/repo it points to, and fails on a range beyond the end of a file, an unknown file or a name that several files have.
It cannot tell whether a range is the right one: that is read by hand.

## Seeded edits

`tools/mutate.py` applies each edit to a scratch copy and adds one line per edit to `seeded/LOG.jsonl`. An edit that no
theorem noticed has `"survived": true`; the theorems added for it are in `tightened`, and the edit is repeated on a later
line. Up to the second batch the tool left out survivors unless asked to keep them; the two it had left out were
added afterwards from its output.
