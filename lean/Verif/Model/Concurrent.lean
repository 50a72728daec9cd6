import Verif.Model.Inputs
import Verif.Model.Indexes
import Verif.Model.JsonFetch
import Verif.Model.Url
/-
  Requests that are handled at the same time: the handlers as the calls of `Get` they make, and the inputs they share.
-/
namespace Rodb

/-! ### The handlers, call by call -/

/-- A handler that still has something to do: it has its result, or it calls `Get` of the input with this name and goes on with what it returns. Everything else that a handler uses does not change while
the program runs. -/
inductive Asking (α : Type) where
  | done (a : α)
  | get (input : String) (position : Int) (next : Res Rec → Asking α)

/-- One after the other. -/
def Asking.bind {α β : Type} : Asking α → (α → Asking β) → Asking β
  | .done a, g => g a
  | .get input position next, g => .get input position (fun r => (next r).bind g)

/-- The result, if `Get` returns this. -/
def Asking.run {α : Type} (fetch : String → Int → Res Rec) : Asking α → α
  | .done a => a
  | .get input position next => (next (fetch input position)).run fetch

/-- json_common.go:131-147, call by call. -/
def collectSteps (name : String) : PIter → Asking (Res (List Rec))
  | [] => .done (.ok [])
  | .error e :: _ => .done (.error e)
  | .ok p :: rest => .get name p (fun r =>
    match r with
    | .error e => .done (.error e)
    | .ok r => (collectSteps name rest).bind (fun rs =>
      match rs with
      | .error e => .done (.error e)
      | .ok rs => .done (.ok (r :: rs))))

/-- json_common.go:165-188, call by call. -/
def itemsSteps (nested : Nat → GoMap Value → Asking (Res (GoMap Value))) (count : Int) : Nat → List Rec → Asking (Res (List (GoMap Value)))
  | _, [] => .done (.ok [])
  | i, r :: rest =>
    match r.all with
    | .error e => .done (.error e)
    | .ok data => (nested i data).bind (fun data =>
      match data with
      | .error e => .done (.error e)
      | .ok data =>
        if (i : Int) + 1 ≥ count then .done (.ok [data])
        else (itemsSteps nested count (i + 1) rest).bind (fun items =>
          match items with
          | .error e => .done (.error e)
          | .ok items => .done (.ok (data :: items))))

/-- json_common.go:100-198, call by call. -/
def relationshipSteps (env : OutputEnv) (nested : List Nat → GoMap Value → List (String × Relationship) → Asking (Res (GoMap Value)))
    (path : List Nat) (data : GoMap Value) : Relationship → Asking (Res Value)
  | .mk inputName isArray limit sort matching relationships =>
    match relationshipFilters data matching [] with
    | .error e => .done (.error e)
    | .ok filters =>
      match mapGet env.inputs inputName with
      | none => .done (.error (.err "There is no such input"))
      | some input =>
        match filteredPositions env path input filters with
        | .error e => .done (.error e)
        | .ok its => (collectSteps input.name (joinIters its)).bind (fun records =>
          match records with
          | .error e => .done (.error e)
          | .ok records =>
            let records := if sort.length > 0 then sortRecords env.sort sort records else records
            let count := relationshipCount isArray limit records.length
            if count < 0 then .done (.error (.panic "runtime error: makeslice: cap out of range"))
            else (itemsSteps (fun i item => nested (3 :: i :: path) item relationships) count 0 records).bind (fun items =>
              match items with
              | .error e => .done (.error e)
              | .ok items => .done (.ok (relationshipValue isArray items))))

/-- json_common.go:99-199, call by call. -/
def loopSteps (load : Nat → GoMap Value → Relationship → Asking (Res Value)) : Nat → GoMap Value → List (String × Relationship) → Asking (Res (GoMap Value))
  | _, data, [] => .done (.ok data)
  | i, data, (name, relationship) :: rest => (load i data relationship).bind (fun v =>
    match v with
    | .error e => .done (.error e)
    | .ok v => loopSteps load (i + 1) (mapSet data name v) rest)

/-- json_common.go:91-202 `loadRelationships`, call by call. -/
def relationshipsSteps (env : OutputEnv) : Nat → List Nat → GoMap Value → List (String × Relationship) → Asking (Res (GoMap Value))
  | _, _, data, [] => .done (.ok data)
  | 0, _, _, _ :: _ => .done (.error .diverge)
  | fuel+1, path, data, relationships =>
    loopSteps (fun i data relationship => relationshipSteps env (relationshipsSteps env fuel) (i :: path) data relationship) 0 data
      (env.visit (0 :: path) relationships)

/-- json_common.go:204-233 `getDataFromPosition`, call by call. -/
def dataSteps (env : OutputEnv) (path : List Nat) (rootInput : String) (relationships : List (String × Relationship)) (position : Int) : Asking (Res (GoMap Value)) :=
  match mapGet env.inputs rootInput with
  | none => .done (.error (.err "Input not found in inputs list."))
  | some input => .get input.name position (fun record =>
    match record with
    | .error e => .done (.error e)
    | .ok record =>
      match record.all with
      | .error e => .done (.error e)
      | .ok data => relationshipsSteps env (depthOf relationships) path data relationships)

/-- json_array.go:110-133, call by call. -/
def rowsSteps (getData : Nat → Int → Asking (Res (GoMap Value))) : Nat → Nat → List PIter → Asking (Res (List Value))
  | 0, _, _ => .done (.ok [])
  | n+1, i, st =>
    match joinCall st with
    | (.error e, _) => .done (.error e)
    | (.ok none, _) => .done (.ok [])
    | (.ok (some p), st') => (getData i p).bind (fun data =>
      match data with
      | .error e => .done (.error e)
      | .ok data => (rowsSteps getData n (i + 1) st').bind (fun rows =>
        match rows with
        | .error e => .done (.error e)
        | .ok rows => .done (.ok (.obj data :: rows))))

/-- json_array.go:66-136 `Handle`, call by call. -/
def arraySteps (env : OutputEnv) (c : ArrayConfig) (params : GoMap Bytes) : Asking Answer :=
  match getLimit c.limit params with
  | .error e => .done (.error e)
  | .ok limit =>
    match getOffset c.offsetParameter params with
    | .error e => .done (.error e)
    | .ok offset =>
      match arrayFilters env params (env.visit [0] c.parameters) [] with
      | .error e => .done (.error e)
      | .ok filters =>
        match mapGet env.inputs c.input with
        | none => .done (.error (.err "Input not found in inputs list."))
        | some input =>
          match filteredPositions env [] input filters with
          | .error e => .done (.error e)
          | .ok its =>
            match skipRows offset its with
            | .error e => .done (.error e)
            | .ok st => (rowsSteps (fun i p => dataSteps env [4, i] c.input c.relationships p) (intOfUint limit).toNat 0 st).bind (fun rows =>
              match rows with
              | .error e => .done (.error e)
              | .ok rows => .done (.data (.arr rows)))

/-- json_object.go:74-119 `Handle`, call by call. -/
def objectSteps (env : OutputEnv) (c : ObjectConfig) (params : GoMap Bytes) : Asking Answer :=
  match objectFilters env params (env.visit [0] c.parameters) [] with
  | .error e => .done (.error e)
  | .ok filters =>
    match mapGet env.inputs c.input with
    | none => .done (.error (.err "There is no such input"))
    | some input =>
      match filteredPositions env [] input filters with
      | .error e => .done (.error e)
      | .ok its =>
        match joinCall its with
        | (.error e, _) => .done (.error e)
        | (.ok none, _) => .done .notFound
        | (.ok (some p), _) => (dataSteps env [4] c.input c.relationships p).bind (fun data =>
          match data with
          | .error e => .done (.error e)
          | .ok data => .done (.data (.obj data)))

/-! ### `Get`, step by step -/

/-- `Get` of one input, once it has the lock of the input: what the calls share, in which states it can be when the program has opened the input, where a call is, the steps it can make, and what it
returns. -/
structure GetSteps where
  Shared : Type
  Opened : Shared → Prop
  Call : Type
  enter : Int → Call
  Step : Call → Shared → Call → Shared → Prop
  result : Call → Option (Res Rec)

/-- csv.go:93-107: the end of `Get`, from what the reader found. -/
def csvResult (columns : List CsvColumn) (position : Int) : CsvRead → Res Rec
  | .eof => .error (.err "Cannot read csv data: EOF")
  | .bad => .error (.err "Cannot read csv data")
  | .row cells => .ok (csvRecord columns cells position)

/-- A call of `Get` (csv.go:85-108): with the lock, after the `Seek`, after the `Reset` of the buffer while reading, and with its result. -/
inductive CsvCall (m : ItemReader CsvRead) where
  | locked (position : Int)
  | sought (position : Int)
  | reading (position : Int) (s : m.σ)
  | finished (r : Res Rec)

/-- The steps of csv.go:89-107, with bufio.go:22-35. -/
inductive CsvCall.Step (c : CsvInput) : CsvCall c.reader → BufReader → CsvCall c.reader → BufReader → Prop where
  /-- bufio.go:27-30: the position is negative. -/
  | refused {p : Int} {r : BufReader} : p < 0 → Step c (.locked p) r (.finished (.error (.err "invalid argument"))) r
  /-- bufio.go:27. -/
  | seek {p : Int} {r : BufReader} : 0 ≤ p → Step c (.locked p) r (.sought p) { r with offset := p.toNat }
  /-- bufio.go:32. -/
  | reset {p : Int} {r : BufReader} : Step c (.sought p) r (.reading p c.reader.init) { r with buffer := [] }
  /-- csv.go:93: a byte that does not end the row. -/
  | byte {p : Int} {r r' : BufReader} {s s' : c.reader.σ} {b : UInt8} (ahead : Nat) : r.next ahead = (some b, r') → c.reader.step s b = .inl s' →
      Step c (.reading p s) r (.reading p s') r'
  /-- csv.go:93: the byte that ends the row. -/
  | last {p : Int} {r r' : BufReader} {s : c.reader.σ} {b : UInt8} {a : CsvRead} (ahead : Nat) : r.next ahead = (some b, r') → c.reader.step s b = .inr a →
      Step c (.reading p s) r (.finished (csvResult c.columns p a)) r'
  /-- csv.go:93: the end of the file. -/
  | eof {p : Int} {r r' : BufReader} {s : c.reader.σ} (ahead : Nat) : r.next ahead = (none, r') →
      Step c (.reading p s) r (.finished (csvResult c.columns p (c.reader.eof s))) r'

/-- csv.go:85-108 `Get`, for a file of this content. The reader may be anywhere in the file, and may have read anything ahead (csv.go:128-132 reads the first row). -/
def csvGet (c : CsvInput) (content : Bytes) : GetSteps where
  Shared := BufReader
  Opened r := r.content = content
  Call := CsvCall c.reader
  enter := .locked
  Step := CsvCall.Step c
  result
    | .finished r => some r
    | _ => none

/-- A call of `Get` (pkg/input/json.go:65-88): with the lock, after the `Seek`, with a decoder that has read some bytes, and with its result. -/
inductive JsonCall where
  | locked (position : Int)
  | sought (position : Int)
  | reading (position : Nat) (got : Bytes)
  | finished (r : Res Rec)

/-- The steps of pkg/input/json.go:69-87, in a file of this content; what is shared is the offset of the open file. The decoder reads as many bytes at a time as it likes, and may stop as soon as what
follows cannot change its answer. -/
inductive JsonCall.Step (decode : JsonDecoder) (content : Bytes) : JsonCall → Nat → JsonCall → Nat → Prop where
  /-- pkg/input/json.go:69-72: the position is negative. -/
  | refused {p : Int} {offset : Nat} : p < 0 → Step decode content (.locked p) offset (.finished (.error (.err "Cannot seek position in json file"))) offset
  /-- pkg/input/json.go:69. -/
  | seek {p : Int} {offset : Nat} : 0 ≤ p → Step decode content (.locked p) offset (.sought p) p.toNat
  /-- pkg/input/json.go:76. -/
  | start {p : Int} {offset : Nat} : Step decode content (.sought p) offset (.reading p.toNat []) offset
  /-- pkg/input/json.go:79: the decoder reads at most `n + 1` bytes of the file. -/
  | read {p offset : Nat} {got : Bytes} (n : Nat) : Step decode content (.reading p got) offset (.reading p (got ++ (content.drop offset).take (n + 1)))
      (offset + ((content.drop offset).take (n + 1)).length)
  /-- pkg/input/json.go:79: the decoder has read enough. -/
  | enough {p offset : Nat} {got : Bytes} : (∀ more, jsonGetResult decode p (got ++ more) = jsonGetResult decode p got) →
      Step decode content (.reading p got) offset (.finished (jsonGetResult decode p got)) offset
  /-- pkg/input/json.go:79: the decoder is at the end of the file. -/
  | eof {p offset : Nat} {got : Bytes} : content.drop offset = [] → Step decode content (.reading p got) offset (.finished (jsonGetResult decode p got)) offset

/-- pkg/input/json.go:65-88 `Get`. -/
def jsonGet (decode : JsonDecoder) (content : Bytes) : GetSteps where
  Shared := Nat
  Opened _ := True
  Call := JsonCall
  enter := .locked
  Step := JsonCall.Step decode content
  result
    | .finished r => some r
    | _ => none

/-- xml.go:92-108 `Get`. Simplification: with the lock, it is one step. -/
def xmlGet (lex : XmlLexer) (query : XmlQuery) (make : XmlNode → Int → Rec) (content : Bytes) : GetSteps where
  Shared := XmlStream
  Opened s := s = .fresh
  Call := Int ⊕ Res Rec
  enter := .inl
  Step call s call' s' := ∃ p, call = .inl p ∧ call' = .inr (xmlFetch lex query make content s p).1 ∧ s' = (xmlFetch lex query make content s p).2
  result
    | .inl _ => none
    | .inr r => some r

/-- No input: nothing calls this. -/
def noGet : GetSteps where
  Shared := Unit
  Opened _ := True
  Call := Unit
  enter _ := ()
  Step _ _ _ _ := False
  result _ := some (.error (.err "There is no such input"))

/-- `Get` of an input that the program has opened: csv.go:29-79 `NewCsv`, pkg/input/json.go:23-59 `NewJson`, xml.go:41-86 `NewXml`. -/
def InputDecl.getSteps (lib : StartLib) (files : Files) (parsers : GoMap TextParser) : InputDecl → GetSteps
  | .csv c =>
    match files.content c.path, c.findColumns lib, c.comma with
    | some content, .ok columns, .ok comma =>
      csvGet { columns := { c with columns := columns }.csvColumns (parseFunctions lib parsers), ignoreFirstRow := c.ignoreFirstRow, reader := csvReader comma } content
    | _, _, _ => noGet
  | .json c =>
    match files.content c.path with
    | some content => jsonGet files.decodeJson content
    | none => noGet
  | .xml c =>
    match files.content c.path with
    | some content => xmlGet files.lexXml (files.xpath.matching c.recordXPath) (c.record files.xpath (parserTypes parsers) (parseFunctions lib parsers)) content
    | none => noGet

/-- `Get` of the input with this name. -/
def getOf (lib : StartLib) (files : Files) (parsers : GoMap TextParser) (c : Config) (name : String) : GetSteps :=
  match c.inputs.find? (fun e => e.2.name = name) with
  | some e => e.2.getSteps lib files parsers
  | none => noGet

/-! ### All the requests -/

/-- Where the handling of a request is: outside of `Get` with all that is still to do (which may be to wait for the lock of an input), or inside of `Get` of an input, with its lock. -/
inductive Handler (get : String → GetSteps) (α : Type) where
  | outside (todo : Asking α)
  | inside (input : String) (call : (get input).Call) (next : Res Rec → Asking α)

/-- The requests that have arrived, each with its handling, and for each input its `readerLock` and what its calls share (csv.go:18-27, pkg/input/json.go:15-21, xml.go:24-33). -/
structure Handling (get : String → GetSteps) (Q α : Type) where
  locked : String → Bool
  shared : (input : String) → (get input).Shared
  handlers : List (Q × Handler get α)

/-- Another value at one place. -/
def setAt {β : String → Type} (f : (s : String) → β s) (a : String) (v : β a) : (s : String) → β s := fun s => if h : s = a then h ▸ v else f s

/-- One step of one of the requests, or another request. Every request is handled by a goroutine of its own (`net/http`). -/
inductive Handling.Step {get : String → GetSteps} {Q α : Type} (handle : Q → Asking α) : Handling get Q α → Handling get Q α → Prop where
  /-- pkg/service/http.go:181-224: a request arrives. -/
  | arrive {s : Handling get Q α} (q : Q) : Step handle s { s with handlers := s.handlers ++ [(q, .outside (handle q))] }
  /-- csv.go:86, pkg/input/json.go:66, xml.go:93: `Get` gets the lock, which was free. -/
  | lock {s : Handling get Q α} {i : Nat} {q : Q} {input : String} {position : Int} {next : Res Rec → Asking α} :
      s.handlers[i]? = some (q, .outside (.get input position next)) → s.locked input = false →
      Step handle s { s with locked := setAt s.locked input true, handlers := s.handlers.set i (q, .inside input ((get input).enter position) next) }
  /-- A step inside of `Get`. -/
  | move {s : Handling get Q α} {i : Nat} {q : Q} {input : String} {call call' : (get input).Call} {next : Res Rec → Asking α} {shared' : (get input).Shared} :
      s.handlers[i]? = some (q, .inside input call next) → (get input).Step call (s.shared input) call' shared' →
      Step handle s { s with shared := setAt s.shared input shared', handlers := s.handlers.set i (q, .inside input call' next) }
  /-- csv.go:87, pkg/input/json.go:67, xml.go:94: `Get` unlocks and returns. -/
  | unlock {s : Handling get Q α} {i : Nat} {q : Q} {input : String} {call : (get input).Call} {next : Res Rec → Asking α} {r : Res Rec} :
      s.handlers[i]? = some (q, .inside input call next) → (get input).result call = some r →
      Step handle s { s with locked := setAt s.locked input false, handlers := s.handlers.set i (q, .outside (next r)) }

/-- Any number of steps. -/
inductive Handling.Run {get : String → GetSteps} {Q α : Type} (handle : Q → Asking α) : Handling get Q α → Handling get Q α → Prop where
  | refl {s : Handling get Q α} : Run handle s s
  | step {s t u : Handling get Q α} : Run handle s t → Step handle t u → Run handle s u

/-- The same input, with other results of `Get` (pkg/input/input.go:13). -/
def Input.withFetch (fetch : String → Int → Res Rec) (input : Input) : Input := { input with fetch := fetch input.name }

/-- The program with other results of `Get`. -/
def StartLib.withFetch (lib : StartLib) (fetch : String → Int → Res Rec) : StartLib :=
  { lib with input := fun d types parsers => (lib.input d types parsers).map (Input.withFetch fetch) }

/-- A request as it arrives at a service: see `serveTarget`. -/
structure Incoming where
  service : String
  old : Bool
  visit : GoMap (List Bytes) → GoMap (List Bytes)
  method : String
  contentType : String
  target : Bytes
  body : Res Bytes

/-- The response of the program to a request, when nothing else happens. pkg/service/http.go:181-224. -/
def respond (service : ServiceLib) (running : Res (GoMap (String × List Route))) (q : Incoming) : Option Response :=
  match running with
  | .error _ => none
  | .ok running =>
    match mapGet running q.service with
    | none => none
    | some (errorsType, routes) => serveTarget service errorsType routes q.old q.visit q.method q.contentType q.target q.body

end Rodb
