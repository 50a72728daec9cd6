import Verif.Model.Pool
import Verif.Spec.Sqlite
/-
  Specification vocabulary: searches in an index that are made at the same time or one after the other, and what can be observed of them.
-/
namespace Rodb.Spec

/-- The searches that begin in a run, in order. -/
def searchesBegun : List SearchEvent → List (String × GoMap Value)
  | [] => []
  | .begin inputName filters :: rest => (inputName, filters) :: searchesBegun rest
  | .step _ _ :: rest => searchesBegun rest

/-- How often the search with this number goes on in a run. -/
def stepsOf (k : Nat) : List SearchEvent → Nat
  | [] => 0
  | .begin _ _ :: rest => stepsOf k rest
  | .step j _ :: rest => (if j = k then 1 else 0) + stepsOf k rest

/-- The search has failed. -/
def Fails : Searching → Prop
  | .failed _ => True
  | _ => False

/-- The search has returned an iterator. -/
def Returns : Searching → Prop
  | .reading _ _ _ => True
  | _ => False

/-- What the iterator of the search has answered up to now. -/
def answersOf : Searching → List (Res Int)
  | .reading given _ _ => given
  | _ => []

/-- The search has failed, or its iterator was read to its end. -/
def Ended : Searching → Prop
  | .failed _ => True
  | .reading _ _ none => True
  | _ => False

instance (s : Searching) : Decidable (Ended s) := by unfold Ended; split <;> infer_instance

/-- A search only begins when the earlier ones have ended. -/
def OneAtATime (search : String → GoMap Value → Searching) : Searches → List SearchEvent → Prop
  | _, [] => True
  | s, .begin inputName filters :: rest => (∀ x ∈ s.all, Ended x) ∧ OneAtATime search (s.next search (.begin inputName filters)) rest
  | s, .step k pick :: rest => OneAtATime search (s.next search (.step k pick)) rest

/-- The connections that are open: the free ones and those that are in use. -/
def openConnections (s : Searches) : Nat :=
  s.pool.free.length + (s.all.filter (fun x => match x with | .quoting _ _ _ => true | .reading _ _ (some _) => true | _ => false)).length

/-- How the calls of `GetRecordPositions` of an index begin. -/
def StoredIndex.search (lib : SqlLib) : StoredIndex → String → GoMap Value → Searching
  | .sqlite c => sqliteSearch lib c
  | .fts5 c => fts5Search lib c

/-- The name of its input. -/
def StoredIndex.input : StoredIndex → String
  | .sqlite c => c.input
  | .fts5 c => c.input

/-- Filters that it can be asked for. -/
def StoredIndex.Asks : StoredIndex → GoMap Value → Prop
  | .sqlite c, filters => filters ≠ [] ∧ ∀ f ∈ filters, SqliteAcceptable c f.1 f.2
  | .fts5 _, filters => ∃ expression w, Stands expression w ∧ filters = [("match", expression)]

/-- The record satisfies all the filters. -/
def StoredIndex.finds (lib : SqlLib) : StoredIndex → GoMap Value → Rec → Bool
  | .sqlite c, filters, r => filters.all (fun f => sqliteSat lib c f.1 f.2 r)
  | .fts5 c, filters, r => filters.all (fun f => ftsSat lib c f.2 r)

/-- The search with these filters, read to its end or up to now, has answered as many of the positions as it was asked for, in their order, and does not fail. -/
def AnswersWith (positions : List Int) (s : Searching) : Prop :=
  ¬ Fails s ∧ answersOf s <+: positions.map .ok ∧ (Ended s → answersOf s = positions.map .ok)

end Rodb.Spec
