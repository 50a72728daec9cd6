import Verif.Model.Closing
/-
  Specification vocabulary: what is open, and what has to be closed before what.
-/
namespace Rodb.Spec

/-- A running program with this configuration has this open: a watcher, a watch and a file for each input; the database of each SQLite and FTS5 index; the file of each wildcard index. -/
def IsOpen (c : Config) : Handle → Prop
  | .watcher name => ∃ d, (name, d) ∈ c.inputs
  | .watch name => ∃ d, (name, d) ∈ c.inputs
  | .file name => ∃ d, (name, d) ∈ c.inputs
  | .database name => (∃ d, (name, .sqlite d) ∈ c.indexes) ∨ ∃ d, (name, .fts5 d) ∈ c.indexes
  | .indexFile name => ∃ d, (name, .wildcard d) ∈ c.indexes

/-- The files of wildcard indexes. -/
def IsIndexFile (h : Handle) : Prop := ∃ name, h = .indexFile name

/-- What belongs to an input. -/
def OfInput (h : Handle) : Prop := ∃ name, h = .watcher name ∨ h = .watch name ∨ h = .file name

/-- `a` has to be closed before `b`: the databases before what belongs to the inputs; of an input the watch, then the watcher, then the file. -/
def ClosedFirst (a b : Handle) : Prop :=
  (∃ name, a = .database name ∧ OfInput b) ∨ ∃ name, (a = .watch name ∧ (b = .watcher name ∨ b = .file name)) ∨ (a = .watcher name ∧ b = .file name)

/-- The names in the maps of components are distinct. -/
structure DistinctNames (c : Config) : Prop where
  inputs : (c.inputs.map (·.1)).Nodup
  indexes : (c.indexes.map (·.1)).Nodup

/-- The same components, in other orders of the maps. -/
structure SameComponents (c d : Config) : Prop where
  inputs : d.inputs.Perm c.inputs
  indexes : d.indexes.Perm c.indexes
  outputs : d.outputs.Perm c.outputs

/-- The databases, in the order in which the program visits the indexes. -/
def databases (c : Config) : List Handle :=
  c.indexes.filterMap (fun e => match e.2 with | .sqlite _ | .fts5 _ => some (.database e.1) | _ => none)

/-- What belongs to the inputs, in the order in which the program visits them. -/
def ofInputs (c : Config) : List Handle := c.inputs.flatMap (fun e => [.watch e.1, .watcher e.1, .file e.1])

end Rodb.Spec
