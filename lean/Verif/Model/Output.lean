import Verif.Model.Join
import Verif.Model.Sort
import Verif.Model.Text
/-
  pkg/output : json_common.go, json_array.go, json_object.go, relationship/config.go, parameter/config.go.
-/
namespace Rodb

/-- `GetRecordPositions` of an index (pkg/index/index.go:13-16), for an input and filters in the order in which
`range` visits them. -/
abbrev IndexFn := Input → GoMap Value → Res PIter

/-- parameter/config.go:12-16 `ParameterConfig`. -/
structure ParamConfig where
  property : String
  index : String
  parser : String

/-- relationship/config.go:20-24 `RelationshipMatchConfig`. -/
structure MatchConfig where
  parentProperty : String
  childProperty : String
  childIndex : String

/-- relationship/config.go:11-18 `RelationshipConfig`. `limit` is a `uint`. -/
inductive Relationship where
  | mk (input : String) (isArray : Bool) (limit : Nat) (sort : List SortConfig) (matching : List MatchConfig)
      (relationships : List (String × Relationship))

/-- What an output uses: the inputs, the indexes, the default index, the parsers, the library's sort, and the order in which
Go visits the maps. Each place where a map is visited passes a different path to `visit`, so any order
may be used at each of them. -/
structure OutputEnv where
  inputs : GoMap Input
  indexes : GoMap IndexFn
  defaultIndex : IndexFn
  parsers : GoMap (Bytes → Res Value)
  sort : (Rec → Rec → Bool) → List Rec → List Rec
  visit : List Nat → {α : Type} → List α → List α

/-- `filtersPerIndex[index][property] = value`, creating the inner map if needed (json_array.go:191-197,
json_object.go:124-134, json_common.go:43-49). -/
def addFilter (filters : GoMap (GoMap Value)) (index property : String) (value : Value) : GoMap (GoMap Value) :=
  match mapGet filters index with
  | some indexFilters => mapSet filters index (mapSet indexFilters property value)
  | none => mapSet filters index (mapSet [] property value)

/-- json_common.go:31-53 `getRelationshipFiltersPerIndex`. -/
def relationshipFilters (data : GoMap Value) : List MatchConfig → GoMap (GoMap Value) → Res (GoMap (GoMap Value))
  | [], filters => .ok filters
  | m :: rest, filters =>
    match mapGet data m.parentProperty with
    | none => .error (.err "Parent property does not exist in relationship")
    | some v => relationshipFilters data rest (addFilter filters m.childIndex m.childProperty v)

/-- json_common.go:73-88, the loop over the indexes; `i` numbers the rounds. -/
def filteredPositionsLoop (env : OutputEnv) (path : List Nat) (input : Input) : Nat → GoMap (GoMap Value) → Res (List PIter)
  | _, [] => .ok []
  | i, (indexName, filters) :: rest =>
    match mapGet env.indexes indexName with
    | none => .error (.err "Index not found in indexes list.")
    | some index =>
      match index input (env.visit (2 :: i :: path) filters) with
      | .error e => .error e
      | .ok it =>
        match filteredPositionsLoop env path input (i + 1) rest with
        | .error e => .error e
        | .ok its => .ok (it :: its)

/-- json_common.go:55-89 `getFilteredRecordPositionsPerIndex`. -/
def filteredPositions (env : OutputEnv) (path : List Nat) (input : Input) (filters : GoMap (GoMap Value)) : Res (List PIter) :=
  if filters.length = 0 then
    match env.defaultIndex input [] with
    | .error e => .error e
    | .ok it => .ok [it]
  else filteredPositionsLoop env path input 0 (env.visit (1 :: path) filters)

/-- json_common.go:131-147: fetch the records at all the positions of the joined iterator. -/
def collectRecords (input : Input) : PIter → Res (List Rec)
  | [] => .ok []
  | .error e :: _ => .error e
  | .ok p :: rest =>
    match input.fetch p with
    | .error e => .error e
    | .ok r =>
      match collectRecords input rest with
      | .error e => .error e
      | .ok rs => .ok (r :: rs)

/-- Go `int(n)` for a `uint` n, on 64 bits. -/
def intOfUint (n : Nat) : Int := if n < 2^63 then n else (n : Int) - 2^64

/-- json_common.go:153-163 `count`. -/
def relationshipCount (isArray : Bool) (limit : Nat) (records : Nat) : Int :=
  let count : Int := if isArray then intOfUint limit else 1
  if count = 0 then records
  else if (records : Int) < count then records
  else count

/-- json_common.go:165-188, the loop over the records; `i` items are already there. `nested` loads the relationships of an
item. -/
def loadItems (nested : Nat → GoMap Value → Res (GoMap Value)) (count : Int) : Nat → List Rec → Res (List (GoMap Value))
  | _, [] => .ok []
  | i, r :: rest =>
    match r.all with
    | .error e => .error e
    | .ok data =>
      match nested i data with
      | .error e => .error e
      | .ok data =>
        if (i : Int) + 1 ≥ count then .ok [data]
        else
          match loadItems nested count (i + 1) rest with
          | .error e => .error e
          | .ok items => .ok (data :: items)

/-- json_common.go:190-198: what is stored. Simplification: the Go type `[]map[string]interface{}` of an array relationship is
represented like any other array. -/
def relationshipValue (isArray : Bool) (items : List (GoMap Value)) : Value :=
  if isArray then .arr (items.map .obj)
  else
    match items with
    | [] => .null
    | item :: _ => .obj item

/-- json_common.go:100-198, the value of one relationship. The second lookup of the input (124-127) repeats the first. -/
def loadRelationship (env : OutputEnv) (nested : List Nat → GoMap Value → List (String × Relationship) → Res (GoMap Value))
    (path : List Nat) (data : GoMap Value) : Relationship → Res Value
  | .mk inputName isArray limit sort matching relationships =>
    match relationshipFilters data matching [] with
    | .error e => .error e
    | .ok filters =>
      match mapGet env.inputs inputName with
      | none => .error (.err "There is no such input")
      | some input =>
        match filteredPositions env path input filters with
        | .error e => .error e
        | .ok its =>
          match collectRecords input (joinIters its) with
          | .error e => .error e
          | .ok records =>
            let records := if sort.length > 0 then sortRecords env.sort sort records else records
            let count := relationshipCount isArray limit records.length
            if count < 0 then .error (.panic "runtime error: makeslice: cap out of range")
            else
              match loadItems (fun i item => nested (3 :: i :: path) item relationships) count 0 records with
              | .error e => .error e
              | .ok items => .ok (relationshipValue isArray items)

/-- json_common.go:99-199, the loop over the relationships; `i` numbers the rounds. -/
def loadLoop (load : Nat → GoMap Value → Relationship → Res Value) : Nat → GoMap Value → List (String × Relationship) → Res (GoMap Value)
  | _, data, [] => .ok data
  | i, data, (name, relationship) :: rest =>
    match load i data relationship with
    | .error e => .error e
    | .ok v => loadLoop load (i + 1) (mapSet data name v) rest

/-- json_common.go:91-202 `loadRelationships`. The fuel bounds the depth of nested relationships (`Relationship.depth`). -/
def loadRelationships (env : OutputEnv) : Nat → List Nat → GoMap Value → List (String × Relationship) → Res (GoMap Value)
  | _, _, data, [] => .ok data
  | 0, _, _, _ :: _ => .error .diverge
  | fuel+1, path, data, relationships =>
    loadLoop (fun i data relationship => loadRelationship env (loadRelationships env fuel) (i :: path) data relationship) 0 data
      (env.visit (0 :: path) relationships)

mutual
/-- How deep relationships are nested. -/
def Relationship.depth : Relationship → Nat
  | .mk _ _ _ _ _ relationships => depthOf relationships + 1
/-- The depth of the deepest one. -/
def depthOf : List (String × Relationship) → Nat
  | [] => 0
  | (_, r) :: rest => max r.depth (depthOf rest)
end

/-- json_common.go:204-233 `getDataFromPosition`. -/
def dataFromPosition (env : OutputEnv) (path : List Nat) (rootInput : String) (relationships : List (String × Relationship))
    (position : Int) : Res (GoMap Value) :=
  match mapGet env.inputs rootInput with
  | none => .error (.err "Input not found in inputs list.")
  | some input =>
    match input.fetch position with
    | .error e => .error e
    | .ok record =>
      match record.all with
      | .error e => .error e
      | .ok data => loadRelationships env (depthOf relationships) path data relationships

/-! ### json_array.go -/

/-- json_array_config.go:25-29 `JsonArrayLimitConfig`; both numbers are `uint`. -/
structure LimitConfig where
  default : Nat
  max : Nat
  parameter : String

/-- json_array_config.go:91-112 `Validate`: the configuration with its defaults, or `none`. -/
def LimitConfig.validate (c : LimitConfig) : Option LimitConfig :=
  let default := if c.default = 0 then 100 else c.default
  let max := if c.max = 0 then 1000 else c.max
  if default > max then none
  else some { default := default, max := max, parameter := if c.parameter = "" then "limit" else c.parameter }

/-- json_array_config.go:14-23 `JsonArrayConfig` without the logger. -/
structure ArrayConfig where
  input : String
  limit : LimitConfig
  offsetParameter : String
  parameters : GoMap ParamConfig
  relationships : List (String × Relationship)

/-- json_array.go:138-155 `getLimit`. -/
def getLimit (c : LimitConfig) (params : GoMap Bytes) : Res Nat :=
  match (match mapGet params c.parameter with
    | none => (.ok c.default : Res Nat)
    | some text =>
      match atoi text with
      | none => .error (.err "strconv.Atoi: invalid syntax or value out of range")
      | some n => if n ≤ 0 then .error (.err "The parameter must be a positive and non-zero number.") else .ok n.toNat) with
  | .error e => .error e
  | .ok limit => .ok (if limit > c.max then c.max else limit)

/-- json_array.go:157-171 `getOffset`. -/
def getOffset (offsetParameter : String) (params : GoMap Bytes) : Res Nat :=
  match mapGet params offsetParameter with
  | none => .ok 0
  | some text =>
    match atoi text with
    | none => .error (.err "strconv.Atoi: invalid syntax or value out of range")
    | some n => if n < 0 then .error (.err "The parameter cannot be negative.") else .ok n.toNat

/-- json_array.go:173-201 `getFiltersPerIndex`, over the parameters in the order of `range`. -/
def arrayFilters (env : OutputEnv) (params : GoMap Bytes) : GoMap ParamConfig → GoMap (GoMap Value) → Res (GoMap (GoMap Value))
  | [], filters => .ok filters
  | (name, p) :: rest, filters =>
    match mapGet params name with
    | none => arrayFilters env params rest filters
    | some text =>
      match mapGet env.parsers p.parser with
      | none => .error (.err "Parser does not exist")
      | some parse =>
        match parse text with
        | .error e => .error e
        | .ok v => arrayFilters env params rest (addFilter filters p.index p.property v)

/-- json_array.go:99-108: skip rows; the state is the one of the joined iterator. -/
def skipRows : Nat → List PIter → Res (List PIter)
  | 0, st => .ok st
  | n+1, st =>
    match joinCall st with
    | (.error e, _) => .error e
    | (.ok none, st') => .ok st'
    | (.ok (some _), st') => skipRows n st'

/-- json_array.go:110-133: read up to so many rows; `i` rows are already there. -/
def readRows (getData : Nat → Int → Res (GoMap Value)) : Nat → Nat → List PIter → Res (List Value)
  | 0, _, _ => .ok []
  | n+1, i, st =>
    match joinCall st with
    | (.error e, _) => .error e
    | (.ok none, _) => .ok []
    | (.ok (some p), st') =>
      match getData i p with
      | .error e => .error e
      | .ok data =>
        match readRows getData n (i + 1) st' with
        | .error e => .error e
        | .ok rows => .ok (.obj data :: rows)

/-- What `Handle` sends: data, or an error, of which `RecordNotFoundError` is recognised by the service. -/
inductive Answer where
  | data (v : Value)
  | notFound
  | error (e : Fail)

/-- json_array.go:66-136 `Handle`, up to the encoding of the rows. Simplification: the input is looked up for each request,
not once by `NewJsonArray` (31-34). -/
def handleArray (env : OutputEnv) (c : ArrayConfig) (params : GoMap Bytes) : Answer :=
  match getLimit c.limit params with
  | .error e => .error e
  | .ok limit =>
    match getOffset c.offsetParameter params with
    | .error e => .error e
    | .ok offset =>
      match arrayFilters env params (env.visit [0] c.parameters) [] with
      | .error e => .error e
      | .ok filters =>
        match mapGet env.inputs c.input with
        | none => .error (.err "Input not found in inputs list.")
        | some input =>
          match filteredPositions env [] input filters with
          | .error e => .error e
          | .ok its =>
            match skipRows offset its with
            | .error e => .error e
            | .ok st =>
              match readRows (fun i p => dataFromPosition env [4, i] c.input c.relationships p) (intOfUint limit).toNat 0 st with
              | .error e => .error e
              | .ok rows => .data (.arr rows)

/-! ### json_object.go -/

/-- json_object_config.go:14-21 `JsonObjectConfig` without the logger. -/
structure ObjectConfig where
  input : String
  parameters : GoMap ParamConfig
  relationships : List (String × Relationship)

/-- json_object.go:121-138 `getRouteFiltersPerIndex`. A parameter that is not given is the empty text. `paramParsers` has the
parser of every parameter (json_object.go:30-37). Simplification: it is looked up for each request, not once by
`NewJsonObject`. -/
def objectFilters (env : OutputEnv) (params : GoMap Bytes) : GoMap ParamConfig → GoMap (GoMap Value) → Res (GoMap (GoMap Value))
  | [], filters => .ok filters
  | (name, p) :: rest, filters =>
    match mapGet env.parsers p.parser with
    | none => .error (.err "Parser does not exist")
    | some parse =>
      match parse ((mapGet params name).getD []) with
      | .error e => .error e
      | .ok v => objectFilters env params rest (addFilter filters p.index p.property v)

/-- json_object.go:74-119 `Handle`, up to the encoding of the data. Simplification: the input is looked up for each request,
not once by `NewJsonObject` (39-42). -/
def handleObject (env : OutputEnv) (c : ObjectConfig) (params : GoMap Bytes) : Answer :=
  match objectFilters env params (env.visit [0] c.parameters) [] with
  | .error e => .error e
  | .ok filters =>
    match mapGet env.inputs c.input with
    | none => .error (.err "There is no such input")
    | some input =>
      match filteredPositions env [] input filters with
      | .error e => .error e
      | .ok its =>
        match joinCall its with
        | (.error e, _) => .error e
        | (.ok none, _) => .notFound
        | (.ok (some p), _) =>
          match dataFromPosition env [4] c.input c.relationships p with
          | .error e => .error e
          | .ok data => .data (.obj data)

end Rodb
