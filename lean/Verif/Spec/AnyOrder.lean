import Verif.Spec.Storage
import Verif.Spec.SameFilter
/-
  Specification vocabulary: indexes that give their matches in any order, as a database without ORDER BY does.
-/
namespace Rodb.Spec

/-- The index finds, for any non-empty set of acceptable filters on different properties, exactly the records that satisfy them all, each once, in any order. -/
def ServesAnyOrder (index : IndexFn) (input : Input) (records : List Rec) (sat : String → Value → Rec → Bool) (acceptable : String → Value → Prop) : Prop :=
  ∀ filters : GoMap Value, filters ≠ [] → (filters.map (·.1)).Nodup → (∀ f ∈ filters, acceptable f.1 f.2) →
    ∃ positions, positions.Perm (positionsOf records (fun r => filters.all (fun f => sat f.1 f.2 r))) ∧ index input filters = .ok (iterateList positions)

/-- The data behind an output, as in `OutputData`, with indexes that give their matches in any order. -/
structure AnyOrderData (env : OutputEnv) (input : Input) (records : List Rec) (sat : String → String → Value → Rec → Bool)
    (acceptable : String → String → Value → Prop) : Prop where
  /-- Go visits each entry of a map once, in any order. -/
  visit : ∀ (path : List Nat) (α : Type) (l : List α), (env.visit path l).Perm l
  increasing : (records.map Rec.position).Pairwise (· < ·)
  fetch : ∀ r ∈ records, input.fetch r.position = .ok r
  everything : env.defaultIndex input [] = .ok (iterateList (records.map Rec.position))
  serves : ∀ name index, mapGet env.indexes name = some index → ServesAnyOrder index input records (sat name) (acceptable name)

/-- All the conditions are on the same index. -/
def OneIndex (conditions : List Condition) : Prop := ∀ c ∈ conditions, ∀ c' ∈ conditions, c.index = c'.index

/-- What a request can find: records that satisfy all the conditions, each at most once; all of them if the conditions are on one index. -/
structure Found (records : List Rec) (sat : String → String → Value → Rec → Bool) (conditions : List Condition) (found : List Rec) : Prop where
  right : ∀ r ∈ found, r ∈ records ∧ ∀ c ∈ conditions, sat c.index c.property c.value r = true
  once : (found.map Rec.position).Nodup
  complete : OneIndex conditions → ∀ r ∈ records, (∀ c ∈ conditions, sat c.index c.property c.value r = true) → r ∈ found

/-- What the indexes of the input `x` find, as in `IndexesFind`, with wildcard, SQLite and full-text indexes that give their matches in any order. -/
structure FindInAnyOrder (config : ConfigLib) (lib : StartLib) (p : ParsedConfig) (functions : GoMap (Bytes → Res Value)) (x : InputDecl) (records : List Rec)
    (sat : String → String → Value → Rec → Bool) (acceptable : String → String → Value → Prop) : Prop where
  equality : ∀ n i, IsIndex p n i → FindsEqual i → ∀ q v r, sat n q v r = propEquals r q v
  others : ∀ i ∈ p.indexes, ¬ FindsEqual i → inputOfIndex i = some x.name → ∀ e input index, WithColumns lib (completedInput x) e → lib.input e (declaredTypes p) functions = .ok input →
    lib.index (completedIndex config i) input = .ok index → ServesAnyOrder index input records (sat i.name) (acceptable i.name)

/-- SQLite gives the rows of a statement in some order, which can differ from statement to statement, and reading them does not fail. -/
structure ReadsAllRows (lib : SqlLib) : Prop where
  plan : PlansPermute lib
  complete : ∀ text, lib.failsAfter text = none

/-- The disk for all the indexes of the input `x`, as in `DiskFor`, without any promise of SQLite on the order of the rows. -/
structure DiskInAnyOrder (config : ConfigLib) (lib : StartLib) (st : Storage) (p : ParsedConfig) (functions : GoMap (Bytes → Res Value)) (x : InputDecl)
    (records : List Rec) : Prop where
  index : lib.index = openIndex st
  named : ∀ e input, WithColumns lib (completedInput x) e → lib.input e (declaredTypes p) functions = .ok input → input.name = x.name
  rows : ∀ e input, WithColumns lib (completedInput x) e → lib.input e (declaredTypes p) functions = .ok input → input.scan = .ok (records.map .ok)
  wildcard : ∀ d, .wildcard d ∈ p.indexes → d.input = x.name → ∀ e input, WithColumns lib (completedInput x) e → lib.input e (declaredTypes p) functions = .ok input →
    WildcardDisk st d input records
  sqlite : ∀ d, .sqlite d ∈ p.indexes → d.input = x.name → ReadsAllRows st.sql ∧ ∀ e input, WithColumns lib (completedInput x) e →
    lib.input e (declaredTypes p) functions = .ok input → StoredDisk st (.sqlite (completedSqlite config d)) d.dsn input
  fts5 : ∀ d, .fts5 d ∈ p.indexes → d.input = x.name → ReadsAllRows st.sql ∧ ∀ e input, WithColumns lib (completedInput x) e →
    lib.input e (declaredTypes p) functions = .ok input → StoredDisk st (.fts5 (completedFts5 d)) d.dsn input

end Rodb.Spec
