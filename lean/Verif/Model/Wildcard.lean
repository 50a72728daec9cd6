import Verif.Model.WildcardNode
import Verif.Model.Join
/-
  pkg/index/wildcard/metadata.go, pkg/index/wildcard.go and wildcard_config.go.
-/
namespace Rodb

/-! ### metadata.go -/

/-- wildcard/metadata.go:16 `ExpectedMagicBytes` ("RODB/INDEX/WILDCARD"). -/
def magicBytes : Bytes := [82,79,68,66,47,73,78,68,69,88,47,87,73,76,68,67,65,82,68]

/-- wildcard/metadata.go:13 `CurrentVersion`. -/
def currentVersion : Nat := 1

/-- wildcard/metadata.go:18-27 `type Metadata` (the stream is the state of `M`). The modification time is only
ever used through `Unix()`, so it is kept in seconds. -/
structure Metadata where
  magic : Bytes
  version : Nat
  modTime : Int
  size : Int
  ignoreCase : Bool
  completed : Bool
  roots : List Nat
  deriving DecidableEq, Repr

/-- wildcard/metadata.go:29-33 `type MetadataInput`: the input is represented by what it answers to
`Size()` and `ModTime()`. -/
structure MetadataInput where
  size : Res Int
  modTimeNs : Res Int
  ignoreCase : Bool
  rootNodesCount : Nat

/-- `time.Time.Unix()` of a time in nanoseconds since the epoch. -/
def unixSeconds (ns : Int) : Int := ns / 1000000000

/-- `binary.Write` of a bool. -/
def boolByte (b : Bool) : UInt8 := if b then 1 else 0

/-- wildcard/metadata.go:96-127 `Serialize` (writing to a `bytes.Buffer` never fails). -/
def Metadata.serialize (m : Metadata) : Bytes :=
  m.magic ++ toBE 2 m.version ++ toBE 8 (toU64 m.modTime) ++ toBE 8 (toU64 m.size) ++
    [boolByte m.ignoreCase] ++ [boolByte m.completed] ++ toBE 8 m.roots.length ++
    m.roots.flatMap (toBE 8)

/-- `binary.Read` of `n` bytes from a reader holding `data`: the bytes and the rest, or an error
(`io.EOF`, `io.ErrUnexpectedEOF`). -/
def readBytes (n : Nat) (data : Bytes) : Res (Bytes × Bytes) :=
  if data.length < n then .error (.err "EOF") else .ok (data.take n, data.drop n)

/-- wildcard/metadata.go:160-164, reading the root offsets. -/
def readOffsets : Nat → Bytes → Res (List Nat)
  | 0, _ => .ok []
  | n+1, data => do
    let (w, data) ← readBytes 8 data
    let ws ← readOffsets n data
    .ok (ofBE w :: ws)

/-- The largest length for which `make([]int64, n)` does not panic: the Go runtime refuses more than
2^48 bytes (`runtime.makeslice` with a 48-bit address space). -/
def maxSliceLen : Int := 2^45

/-- wildcard/metadata.go:129-167 `Unserialize`, on a reader holding `data`. `make` panics when the count read
from the file is negative or too large; running out of memory below that limit is not modelled. -/
def Metadata.unserialize (data : Bytes) : Res Metadata := do
  let (magic, data) ← readBytes magicBytes.length data
  let (version, data) ← readBytes 2 data
  let (modTime, data) ← readBytes 8 data
  let (size, data) ← readBytes 8 data
  let (ignoreCase, data) ← readBytes 1 data
  let (completed, data) ← readBytes 1 data
  let (count, data) ← readBytes 8 data
  let count := toI64 (ofBE count)
  if count < 0 ∨ count > maxSliceLen then .error (.panic "makeslice: len out of range")
  else
    let roots ← readOffsets count.toNat data
    .ok { magic := magic, version := ofBE version, modTime := toI64 (ofBE modTime),
          size := toI64 (ofBE size), ignoreCase := decide (ignoreCase ≠ [0]),
          completed := decide (completed ≠ [0]), roots := roots }

/-- wildcard/metadata.go:169-180 `Save`. -/
def Metadata.save (m : Metadata) : M Unit := mReplace 0 m.serialize

/-- The result of a call that does not touch the stream. -/
def M.lift {α : Type} (r : Res α) : M α := fun s => (r, s)

/-- wildcard/metadata.go:35-63 `NewMetadata`. -/
def newMetadata (input : MetadataInput) : M Metadata := do
  let size ← M.lift input.size
  let modTime ← M.lift input.modTimeNs
  let m : Metadata :=
    { magic := magicBytes, version := currentVersion, modTime := unixSeconds modTime, size := size,
      ignoreCase := input.ignoreCase, completed := false, roots := List.replicate input.rootNodesCount 0 }
  m.save
  pure m

/-- wildcard/metadata.go:65-80 `LoadMetadata`; stream.go:170-186 `GetReaderFrom` flushes and reads the raw file
from its start. -/
def loadMetadata : M Metadata := do
  mFlush
  fun s => (Metadata.unserialize s.file, s)

/-- wildcard/metadata.go:82-84 `SetRootNode` (indexes are in range: the caller loops over as many properties as
there are roots). -/
def Metadata.setRootNode (m : Metadata) (index : Nat) (node : TreeNode) : Metadata :=
  { m with roots := m.roots.set index node.offset }

/-- wildcard/metadata.go:92-94 `GetRootNode`. An offset so large that the addition of stream.go:88 overflows
makes the slice expression of stream.go:99 panic. An index out of range panics. -/
def Metadata.getRootNode (m : Metadata) (index : Nat) : M (Option TreeNode) :=
  match m.roots[index]? with
  | none => M.fail (.panic "index out of range")
  | some offset => fun s =>
    if s.bufferOffset ≤ offset ∧ offset < 2^63 ∧ 2^63 ≤ offset - s.bufferOffset + treeNodeSize then
      (.error (.panic "slice bounds out of range"), s)
    else getTreeNode offset s

/-- wildcard/metadata.go:184-221 `AssertValid`. -/
def Metadata.assertValid (m : Metadata) (expect : MetadataInput) : Res Unit :=
  if m.version ≠ currentVersion then .error (.err "not compatible with the current version")
  else if m.magic ≠ magicBytes then .error (.err "not a wildcard index")
  else
    match expect.modTimeNs with
    | .error e => .error e
    | .ok modTime =>
      if m.modTime ≠ unixSeconds modTime then .error (.err "input file has been modified")
      else
        match expect.size with
        | .error e => .error e
        | .ok size =>
          if m.size ≠ size then .error (.err "input file size has changed")
          else if m.ignoreCase ≠ expect.ignoreCase then .error (.err "ignoreCase does not match")
          else if m.completed = false then .error (.err "previous indexing process has not ended properly")
          else if m.roots.length ≠ expect.rootNodesCount then .error (.err "properties do not match")
          else .ok ()

/-! ### wildcard.go -/

/-- wildcard_config.go:11-19 `WildcardConfig`, after validation: `IgnoreCase` is set (line 56-60).
`bufferSize` is the constant `STREAM_BUFFER_SIZE` of stream.go:9. -/
structure WildcardConfig where
  properties : List String
  ignoreCase : Bool
  bufferSize : Nat := streamBufferSize

/-- wildcard_config.go:71-81 `DoesHandleProperty`. -/
def WildcardConfig.doesHandleProperty (c : WildcardConfig) (property : String) : Bool :=
  c.properties.any (fun p => property == p)

/-- The `index` map of wildcard.go:14-18: property name to root node (a pointer, possibly nil). -/
abbrev WIndex := GoMap (Option TreeNode)

/-- wildcard.go:209-211, 250-252: lower-casing if configured. `lower` is `strings.ToLower`. -/
def WildcardConfig.normalize (c : WildcardConfig) (lower : Bytes → Bytes) (s : Bytes) : Bytes :=
  if c.ignoreCase then lower s else s

/-- wildcard.go:204-219, the part of `addValueToIndex` for a string. -/
def addString (lower : Bytes → Bytes) (cfg : WildcardConfig) (index : WIndex) (property : String) (s : Bytes)
    (position : Int) : M WIndex :=
  match mapGet index property with
  | some (some root) => do
    let root ← root.addAllSequences (cfg.normalize lower s) position
    pure (mapSet index property (some root))
  | _ => M.fail (.panic "nil pointer dereference")

mutual
/-- wildcard.go:190-220 `addValueToIndex`; returns the index map with the updated root. An array has
its elements indexed first and is then refused by the string check (line 204-207). Error texts are not
modelled. -/
def addValueToIndex (lower : Bytes → Bytes) (cfg : WildcardConfig) (index : WIndex) (property : String) :
    Value → Int → M WIndex
  | .str s, position => addString lower cfg index property s position
  | .arr l, position => do
    let _ ← addValuesToIndex lower cfg index property l position
    M.fail (.err "Cannot index the value because it is not a string")
  | _, _ => M.fail (.err "Cannot index the value because it is not a string")
/-- wildcard.go:197-201, the loop over the elements of an array. -/
def addValuesToIndex (lower : Bytes → Bytes) (cfg : WildcardConfig) (index : WIndex) (property : String) :
    List Value → Int → M WIndex
  | [], _ => pure index
  | v :: vs, position => do
    let index ← addValueToIndex lower cfg index property v position
    addValuesToIndex lower cfg index property vs position
end

/-- wildcard.go:111-124, the loop over the properties for one record. -/
def indexProperties (lower : Bytes → Bytes) (cfg : WildcardConfig) (r : Rec) : List String → WIndex → M WIndex
  | [], index => pure index
  | property :: rest, index => do
    let value ← M.lift (r.get property)
    let index ← addValueToIndex lower cfg index property value r.position
    indexProperties lower cfg r rest index

/-- wildcard.go:100-125, the loop over the records. -/
def indexRecords (lower : Bytes → Bytes) (cfg : WildcardConfig) : List (Res Rec) → WIndex → M WIndex
  | [], index => pure index
  | r :: rest, index => do
    let r ← M.lift r
    let index ← indexProperties lower cfg r cfg.properties index
    indexRecords lower cfg rest index

/-- wildcard.go:72-82, the loop creating the root nodes; `i` is `propertyIndex`. -/
def createRoots : List String → Nat → Metadata → WIndex → M (Metadata × WIndex)
  | [], _, m, index => pure (m, index)
  | property :: rest, i, m, index => do
    let root ← newEmptyTreeNode
    root.save
    createRoots rest (i + 1) (m.setRootNode i root) (mapSet index property (some root))

/-- wildcard.go:62-66, 166-170: what the metadata is made of or compared with. -/
def WildcardConfig.metadataInput (cfg : WildcardConfig) (input : Input) : MetadataInput :=
  { size := input.size, modTimeNs := input.modTimeNs, ignoreCase := cfg.ignoreCase,
    rootNodesCount := cfg.properties.length }

/-- wildcard.go:62-86, the part of `createIndex` before the records are read. -/
def createEmpty (cfg : WildcardConfig) (input : Input) : M (Metadata × WIndex) := do
  let m ← newMetadata (cfg.metadataInput input)
  let (m, index) ← createRoots cfg.properties 0 m []
  m.save
  pure (m, index)

/-- wildcard.go:62-125, the part of `createIndex` before the metadata is marked completed. -/
def createAndFill (lower : Bytes → Bytes) (cfg : WildcardConfig) (input : Input) : M (Metadata × WIndex) := do
  let (m, index) ← createEmpty cfg input
  let records ← M.lift input.scan
  let index ← indexRecords lower cfg records index
  pure (m, index)

/-- wildcard.go:54-146 `createIndex`, on the stream of the just created file. -/
def createIndex (lower : Bytes → Bytes) (cfg : WildcardConfig) (input : Input) : M WIndex := do
  let (m, index) ← createAndFill lower cfg input
  Metadata.save { m with completed := true }
  mFlush
  pure index

/-- wildcard.go:176-181, the loop reading the root nodes. -/
def loadRoots (m : Metadata) : List String → Nat → WIndex → M WIndex
  | [], _, index => pure index
  | property :: rest, i, index => do
    let root ← m.getRootNode i
    loadRoots m rest (i + 1) (mapSet index property root)

/-- wildcard.go:148-188 `loadIndex`. -/
def loadIndex (cfg : WildcardConfig) (input : Input) : M WIndex := do
  let m ← loadMetadata
  M.lift (m.assertValid (cfg.metadataInput input))
  loadRoots m cfg.properties 0 []

/-- wildcard.go:14-18 `type Wildcard`; the stream shared by the root nodes is explicit. -/
structure Wildcard where
  config : WildcardConfig
  inputName : String
  index : WIndex
  stream : Stream

/-- wildcard.go:20-48 `NewWildcard`, for an existing input: `file` is the content of the configured
file if it exists. Also returns the file left on disk. -/
def newWildcard (lower : Bytes → Bytes) (cfg : WildcardConfig) (input : Input) (file : Option Bytes) :
    Res Wildcard × Bytes :=
  match file with
  | none =>
    match createIndex lower cfg input (Stream.new [] 0 cfg.bufferSize) with
    | (.ok index, s) => (.ok { config := cfg, inputName := input.name, index := index, stream := s }, s.file)
    | (.error e, s) => (.error e, s.file)
  | some file =>
    match loadIndex cfg input (Stream.new file file.length cfg.bufferSize) with
    | (.ok index, s) => (.ok { config := cfg, inputName := input.name, index := index, stream := s }, s.file)
    | (.error e, s) => (.error e, s.file)

/-- position.go:125-140 `Iterate`, as the outcomes of its calls. The stream is not written to once the
index is built, so all calls see the same stream. -/
def iteratePositions : Nat → Option PosNode → Stream → PIter
  | 0, _, _ => [.error .diverge]
  | fuel+1, current, s =>
    match (iterateStep current s).1 with
    | .ok (none, _) => []
    | .ok (some p, next) => .ok p :: iteratePositions fuel next s
    | .error e => [.error e]

/-- wildcard.go:234-263, the loop over the filters in the order `range` visits them; `none` is the
early `return record.EmptyIterator`. -/
def wildcardFilters (lower : Bytes → Bytes) (w : Wildcard) : GoMap Value → Res (Option (List PIter))
  | [] => .ok (some [])
  | (property, filter) :: rest =>
    if ¬ w.config.doesHandleProperty property then .error (.err "This index does not handle the property")
    else
      match mapGet w.index property with
      | none => .ok none
      | some root =>
        match filter with
        | .str s =>
          match root with
          | none => .error (.panic "nil pointer dereference")
          | some root =>
            match (root.getSequence (w.config.normalize lower s) w.stream).1 with
            | .error e => .error e
            | .ok none => .ok none
            | .ok (some results) =>
              match wildcardFilters lower w rest with
              | .ok (some its) =>
                .ok (some (iteratePositions maxFuel (some results) w.stream :: its))
              | r => r
        | _ => .error (.err "Cannot filter the value because it is not a string")

/-- wildcard.go:222-266 `GetRecordPositions`. `input != wildcard.input` compares the names (inputs are
unique by name, pkg/config/config.go). -/
def Wildcard.getRecordPositions (lower : Bytes → Bytes) (w : Wildcard) (inputName : String)
    (filters : GoMap Value) : Res PIter :=
  if inputName ≠ w.inputName then .error (.err "This index does not handle the input")
  else if filters.length = 0 then .error (.err "This index requires at least one filter.")
  else
    match wildcardFilters lower w filters with
    | .error e => .error e
    | .ok none => .ok emptyIter
    | .ok (some its) => .ok (joinIters its)

end Rodb
