import Verif.Model.Output
import Verif.Spec.Records
import Verif.Spec.Text
/-
  Specification vocabulary: what a request asks for and which records it selects.
-/
namespace Rodb.Spec

/-- One condition of a request: a property must satisfy what the named index makes of a value. -/
structure Condition where
  index : String
  property : String
  value : Value

/-- The index finds, for any non-empty set of acceptable filters on different properties, exactly the records that satisfy
them all, in the order of their positions. `sat p v r` says that record `r` satisfies the filter `v` on `p`. -/
def Serves (index : IndexFn) (input : Input) (records : List Rec) (sat : String → Value → Rec → Bool)
    (acceptable : String → Value → Prop) : Prop :=
  ∀ filters : GoMap Value, filters ≠ [] → (filters.map (·.1)).Nodup → (∀ f ∈ filters, acceptable f.1 f.2) →
    index input filters = .ok (iterateList (positionsOf records (fun r => filters.all (fun f => sat f.1 f.2 r))))

/-- The data behind an output: the records of one input, in position order, that can be fetched again, and what each index
answers about them. `sat i p v r` says that record `r` satisfies the filter `v` on `p` for the index named `i`. -/
structure OutputData (env : OutputEnv) (input : Input) (records : List Rec) (sat : String → String → Value → Rec → Bool)
    (acceptable : String → String → Value → Prop) : Prop where
  /-- Go visits each entry of a map once, in any order. -/
  visit : ∀ (path : List Nat) (α : Type) (l : List α), (env.visit path l).Perm l
  increasing : (records.map Rec.position).Pairwise (· < ·)
  fetch : ∀ r ∈ records, input.fetch r.position = .ok r
  everything : env.defaultIndex input [] = .ok (iterateList (records.map Rec.position))
  serves : ∀ name index, mapGet env.indexes name = some index → Serves index input records (sat name) (acceptable name)

/-- The parameters of the configuration that the request gives, with the given text. -/
def givenParameters (parameters : GoMap ParamConfig) (params : GoMap Bytes) : List (ParamConfig × Bytes) :=
  parameters.filterMap (fun p => (mapGet params p.1).map (fun text => (p.2, text)))

/-- Each parameter text is read by its parser as the value of the condition at the same place, on the configured property and
index. -/
def Reads (env : OutputEnv) : List (ParamConfig × Bytes) → List Condition → Prop
  | [], [] => True
  | (p, text) :: rest, c :: conditions =>
    c.index = p.index ∧ c.property = p.property ∧
      (∃ parse, mapGet env.parsers p.parser = some parse ∧ parse text = .ok c.value) ∧ Reads env rest conditions
  | _, _ => False

/-- The conditions can be answered: their indexes exist and accept them, and no two are on the same property and index. -/
structure Answerable (env : OutputEnv) (acceptable : String → String → Value → Prop) (conditions : List Condition) : Prop where
  index : ∀ c ∈ conditions, ∃ index, mapGet env.indexes c.index = some index
  acceptable : ∀ c ∈ conditions, acceptable c.index c.property c.value
  distinct : (conditions.map (fun c => (c.index, c.property))).Nodup

/-- The records that satisfy all the conditions, in order. -/
def matching (records : List Rec) (sat : String → String → Value → Rec → Bool) (conditions : List Condition) : List Rec :=
  records.filter (fun r => conditions.all (fun c => sat c.index c.property c.value r))

/-- The limit asked by the request: the given positive number or else the default. -/
def AskedLimit (c : LimitConfig) (params : GoMap Bytes) (n : Nat) : Prop :=
  (mapGet params c.parameter = none ∧ n = c.default) ∨
  ∃ text, mapGet params c.parameter = some text ∧ IntegerText text n ∧ 0 < n

/-- The offset asked by the request: the given non-negative number or else 0. -/
def AskedOffset (parameter : String) (params : GoMap Bytes) (n : Nat) : Prop :=
  (mapGet params parameter = none ∧ n = 0) ∨ ∃ text, mapGet params parameter = some text ∧ IntegerText text n

/-- What an object request gives for each parameter of the configuration: its text, or the empty text. -/
def allParameters (parameters : GoMap ParamConfig) (params : GoMap Bytes) : List (ParamConfig × Bytes) :=
  parameters.map (fun p => (p.2, (mapGet params p.1).getD []))

/-- `item` is the data shown for the record: its properties, with the relationships loaded (see `Loaded`). -/
def ShowsRecord (env : OutputEnv) (relationships : List (String × Relationship)) (r : Rec) (item : Res (GoMap Value)) : Prop :=
  (∃ e, r.all = .error e ∧ item = .error e) ∨
  ∃ data path, r.all = .ok data ∧ item = loadRelationships env (depthOf relationships) path data relationships

/-- The answer is an array that shows exactly these records in this order, or the error met while showing one of them. -/
def ListsRecords (env : OutputEnv) (relationships : List (String × Relationship)) (window : List Rec) (answer : Answer) : Prop :=
  (∃ rows : List (GoMap Value), answer = .data (.arr (rows.map .obj)) ∧ rows.length = window.length ∧
    ∀ k (h : k < window.length) (h' : k < rows.length), ShowsRecord env relationships window[k] (.ok rows[k])) ∨
  (∃ e, ∃ r ∈ window, answer = .error e ∧ ShowsRecord env relationships r (.error e))

end Rodb.Spec
