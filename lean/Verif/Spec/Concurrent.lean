import Verif.Model.Concurrent
import Verif.Spec.Running
import Verif.Spec.XmlInput
/-
  Specification vocabulary: requests that are handled at the same time.
-/
namespace Rodb.Spec

/-- The handling of a request makes some calls of `Get`, one after the other, and its result is `F` of what these calls return, whatever that is. -/
def Performs {α : Type} (todo : Asking α) (F : (String → Int → Res Rec) → α) : Prop := ∀ fetch, todo.run fetch = F fetch

/-- Whatever `Get` returns, it is called for these positions of the inputs only. -/
inductive AsksOnly {α : Type} (Asked : String → Int → Prop) : Asking α → Prop where
  | done (a : α) : AsksOnly Asked (.done a)
  | get {input : String} {position : Int} {next : Res Rec → Asking α} : Asked input position → (∀ r, AsksOnly Asked (next r)) → AsksOnly Asked (.get input position next)

/-- The program answers a request `q` by `handle q`: when `Get` returns what `fetch` says, the response is the one of the program in which `Get` returns that. -/
def HandlesRequests (lib : StartLib) (c : Config) (service : ServiceLib) (handle : Incoming → Asking (Option Response)) : Prop :=
  ∀ q, Performs (handle q) (fun fetch => respond service (start (lib.withFetch fetch) c) q)

/-- A configuration whose inputs can be shared by requests: CSV and JSON files, without a conversion from another character set. The steps of the model's `Get` convert the cells with functions,
which a conversion with a shared decoder is not (C35). -/
structure Shareable (p : ParsedConfig) : Prop where
  files : ∀ d, .xml d ∉ p.inputs
  charsets : ∀ x ∈ p.parsers, ∀ charset, x.kind = .string charset → charset = ""

/-- A position of a record of the input with this name. -/
def RecordPosition (lib : StartLib) (parsers : GoMap TextParser) (c : Config) (name : String) (position : Int) : Prop :=
  ∃ k d input records r, (k, d) ∈ c.inputs ∧ d.name = name ∧ InputDecl.instantiate lib parsers d = .ok input ∧ input.scan = .ok records ∧ .ok r ∈ records ∧ r.position = position

/-- Is this the name of an XML input? -/
def NamesXml (c : Config) (name : String) : Prop := ∃ k d, (k, .xml d) ∈ c.inputs ∧ d.name = name

/-- `Get` of the XML inputs is called for positions of records only, whatever it returns. -/
def AsksRecords (lib : StartLib) (parsers : GoMap TextParser) (c : Config) (handle : Incoming → Asking (Option Response)) : Prop :=
  ∀ q, AsksOnly (fun name position => NamesXml c name → RecordPosition lib parsers c name position) (handle q)

/-- The inputs can be shared by requests, also the XML files: they are well-formed documents, the expression of the records looks for elements anywhere in the document, and no record comes after the end of
an element with a record in it (C99). The positions that were fetched before the request that is handled alone are positions of records. There is no conversion from another character set. -/
structure ShareableXml (lib : StartLib) (files : Files) (parsers : GoMap TextParser) (p : ParsedConfig) (c : Config) : Prop where
  documents : ∀ k d, (k, .xml d) ∈ c.inputs → ∃ content nodes P, SteadyLexer files.lexXml ∧ files.content d.path = some content ∧ LooksFor (files.xpath.matching d.recordXPath) P ∧
    IsDocument files.lexXml content nodes ∧ Straight P nodes
  fetched : ∀ k d, (k, .xml d) ∈ c.inputs → ∀ position, ∀ before ∈ files.fetchedXml d.name position, RecordPosition lib parsers c d.name before
  charsets : ∀ x ∈ p.parsers, ∀ charset, x.kind = .string charset → charset = ""

/-- The wildcard, SQLite and FTS5 indexes of XML inputs give positions of records only. -/
def StoredGiveRecords (lib : StartLib) (parsers : GoMap TextParser) (c : Config) : Prop :=
  ∀ k x, (k, x) ∈ c.indexes → ¬ FindsEqual x → ∀ k' d, (k', .xml d) ∈ c.inputs → inputOfIndex x = some d.name → ∀ input, InputDecl.instantiate lib parsers (.xml d) = .ok input →
    ∀ index, lib.index x input = .ok index → ∀ filters positions, index input filters = .ok positions → ∀ position, .ok position ∈ positions → RecordPosition lib parsers c d.name position

/-- The program before the first request: no input is locked, and what the calls of `Get` share is in any of the states in which it can be then. -/
def Handling.Fresh {get : String → GetSteps} {Q α : Type} (s : Handling get Q α) : Prop :=
  (∀ name, s.locked name = false) ∧ (∀ name, (get name).Opened (s.shared name)) ∧ s.handlers = []

end Rodb.Spec
