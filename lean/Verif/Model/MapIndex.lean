import Verif.Model.Join
/-
  pkg/index/map.go, map_config.go : the in-memory index.
-/
namespace Rodb

/-- map.go:13 `mapPropertyIndex`, a Go `map[interface{}]PositionList`, as the list of its entries. -/
abbrev MapPropertyIndex := List (Value × List Int)

/-- `m[v]` with the "exists" result, for a hashable key. Keys are compared with Go `==`; a NaN is equal
to no key. -/
def vmapFind (m : MapPropertyIndex) (v : Value) : Option (List Int) :=
  match m with
  | [] => none
  | (k, ps) :: r => if goEq k v = .ok true then some ps else vmapFind r v

/-- `m[v] = ps` for a hashable key. -/
def vmapPut (m : MapPropertyIndex) (v : Value) (ps : List Int) : MapPropertyIndex :=
  match m with
  | [] => [(v, ps)]
  | (k, ps') :: r => if goEq k v = .ok true then (k, ps) :: r else (k, ps') :: vmapPut r v ps

/-- The panic of any map access with an array or an object as key. -/
def unhashable : Fail := .panic "runtime error: hash of unhashable type"

/-- map_config.go:10-16 `MapConfig`. -/
structure MapConfig where
  properties : List String

/-- map_config.go:47-57 `DoesHandleProperty`. -/
def MapConfig.doesHandleProperty (c : MapConfig) (property : String) : Bool :=
  c.properties.any (fun p => property == p)

/-- map.go:97-124, the end of `addValueToIndex` (lines 111-123) for one value. `index[property]` exists for
every property given by the caller; a missing one would be a nil map, and writing to it a panic. -/
def mapAddScalar (index : GoMap MapPropertyIndex) (property : String) (value : Value) (position : Int) :
    Res (GoMap MapPropertyIndex) :=
  if ¬ value.hashable then .error unhashable
  else
    match mapGet index property with
    | none => .error (.panic "assignment to entry in nil map")
    | some m =>
      match vmapFind m value with
      | some ps => .ok (mapSet index property (vmapPut m value (ps ++ [position])))
      | none => .ok (mapSet index property (vmapPut m value [position]))

mutual
/-- map.go:97-124 `addValueToIndex`. The elements of an array are indexed first, and then the array itself
is used as a key (line 112). -/
def mapAddValue (index : GoMap MapPropertyIndex) (property : String) : Value → Int → Res (GoMap MapPropertyIndex)
  | .arr l, position => do
    let index ← mapAddValues index property l position
    mapAddScalar index property (.arr l) position
  | .obj _, _ => .error (.err "Indexing objects is not supported")
  | v, position => mapAddScalar index property v position
/-- map.go:104-108, the loop over the elements of an array. -/
def mapAddValues (index : GoMap MapPropertyIndex) (property : String) : List Value → Int → Res (GoMap MapPropertyIndex)
  | [], _ => .ok index
  | v :: vs, position => do
    let index ← mapAddValue index property v position
    mapAddValues index property vs position
end

/-- map.go:75-88, the loop over the properties for one record. The error of line 86 replaces the one of
`addValueToIndex`; a panic goes through. -/
def mapIndexProperties (r : Rec) : List String → GoMap MapPropertyIndex → Res (GoMap MapPropertyIndex)
  | [], index => .ok index
  | property :: rest, index => do
    let value ← r.get property
    match mapAddValue index property value r.position with
    | .ok index => mapIndexProperties r rest index
    | .error (.err _) => .error (.err "Cannot index the property")
    | .error e => .error e

/-- map.go:64-89, the loop over the records. -/
def mapIndexRecords (properties : List String) : List (Res Rec) → GoMap MapPropertyIndex → Res (GoMap MapPropertyIndex)
  | [], index => .ok index
  | r :: rest, index => do
    let r ← r
    let index ← mapIndexProperties r properties index
    mapIndexRecords properties rest index

/-- map.go:15-19 `type Map`. -/
structure MapIndex where
  config : MapConfig
  inputName : String
  index : GoMap MapPropertyIndex

/-- map.go:47-50: an empty map for each property. -/
def mapEmpty : List String → GoMap MapPropertyIndex → GoMap MapPropertyIndex
  | [], index => index
  | property :: rest, index => mapEmpty rest (mapSet index property [])

/-- map.go:21-95 `NewMap` and `reindex`, for an existing input. Closing the input iterator is not modelled. -/
def newMap (config : MapConfig) (input : Input) : Res MapIndex := do
  let records ← input.scan
  let index ← mapIndexRecords config.properties records (mapEmpty config.properties [])
  .ok { config := config, inputName := input.name, index := index }

/-- map.go:138-155, the loop over the filters in the order `range` visits them; `none` is the early
`return record.EmptyIterator`. -/
def mapFilters (m : MapIndex) : GoMap Value → Res (Option (List PIter))
  | [] => .ok (some [])
  | (property, filter) :: rest =>
    if ¬ m.config.doesHandleProperty property then .error (.err "This index does not handle the property")
    else
      match mapGet m.index property with
      | none => .ok none
      | some indexedValues =>
        if ¬ filter.hashable then .error unhashable
        else
          match vmapFind indexedValues filter with
          | none => .ok none
          | some results =>
            match mapFilters m rest with
            | .ok (some its) => .ok (some (iterateList results :: its))
            | r => r

/-- map.go:126-158 `GetRecordPositions`. `input != mapIndex.input` compares the names (inputs are unique by
name). -/
def MapIndex.getRecordPositions (m : MapIndex) (inputName : String) (filters : GoMap Value) : Res PIter :=
  if inputName ≠ m.inputName then .error (.err "This index does not handle the input")
  else if filters.length = 0 then .error (.err "This index requires at least one filter.")
  else
    match mapFilters m filters with
    | .error e => .error e
    | .ok none => .ok emptyIter
    | .ok (some its) => .ok (joinIters its)

end Rodb
