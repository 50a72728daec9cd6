import Verif.Spec.Main
/-
  Specification vocabulary: when the program notices that a server has failed.
-/
namespace Rodb.Spec

/-- In the order in which the program waits for its services, there is one with a failed server, and no server of it or of the services before serves. -/
def Noticed (c : ProgramSetup) (s : ProgramRun) : Prop :=
  ∃ k i : Nat, c.waitOrder[k]? = some i ∧ (∃ p, (s.server i p).status = .failed) ∧
    ∀ m : Nat, m ≤ k → ∀ j, c.waitOrder[m]? = some j → ∀ p, (s.server j p).status ≠ .serving

/-- In the order in which the program closes its services, no service before this one has a failed server. -/
def ClosedInTurn (c : ProgramSetup) (s : ProgramRun) (j : Nat) : Prop :=
  ∃ k : Nat, c.closeOrder[k]? = some j ∧ ∀ m : Nat, m < k → ∀ i, c.closeOrder[m]? = some i → ∀ p, (s.server i p).status ≠ .failed

/-- In the order in which the program waits for its services, there is one with a failed server, such that it and those before serve no more or are closed in turn. -/
def WillBeNoticed (c : ProgramSetup) (s : ProgramRun) : Prop :=
  ∃ k i : Nat, c.waitOrder[k]? = some i ∧ (∃ p, (s.server i p).status = .failed) ∧
    ∀ m : Nat, m ≤ k → ∀ j, c.waitOrder[m]? = some j → (∀ p, (s.server j p).status ≠ .serving) ∨ ClosedInTurn c s j

end Rodb.Spec
