import Verif.Model.Watch
/-
  Specification vocabulary: changes of an input file.
-/
namespace Rodb.Spec

/-- The path keeps leading to the same file, and no events are dropped. -/
def InPlace (actions : List WatchAction) : Prop := ∀ a ∈ actions, (∀ file, a ≠ .replace file) ∧ a ≠ .overflow

/-- A notice that the file was written is waiting. -/
def NoticeWaits (s : WatchState) : Prop := ∃ op ∈ s.events, op.write = true

/-- The file was written: one of the actions is a write to it. -/
def Written (file : Nat) (actions : List WatchAction) : Prop := ∃ content, .write file content ∈ actions

/-- A state of the running program: the input was opened and added to the watcher after some actions, and `s` was reached from there by `actions`. `file` is the file that was at the path when
it was added, and `original` what it contained then. -/
def Serving (die : Bool) (s : WatchState) (file : Nat) (original : Bytes) (opening actions : List WatchAction) : Prop :=
  ∃ atPath content s₀ s₁, WatchState.Run die (.fresh atPath content) opening s₀ ∧ WatchState.Step die s₀ .addWatch s₁ ∧ WatchState.Run die s₁ actions s ∧
    s₁.atPath = some file ∧ s₁.content file = original

end Rodb.Spec
