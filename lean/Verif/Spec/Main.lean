import Verif.Model.Main
/-
  What a user of the program may ask about its end.
-/
namespace Rodb.Spec

/-- The two loops over the map of services visit every service once, in some order. -/
structure GoodSetup (c : ProgramSetup) : Prop where
  waitOrder : c.waitOrder.Perm (List.range c.services)
  closeOrder : c.closeOrder.Perm (List.range c.services)

/-- The program can come to this state. -/
def Comes (c : ProgramSetup) (s : ProgramRun) : Prop := ∃ es, ProgramPath c (ProgramRun.started c) es s

/-- Some server stopped by an error of its own. -/
def SomeServerFailed (s : ProgramRun) : Prop := ∃ i p, (s.server i p).status = .failed

/-- A signal was received. -/
def Signalled (s : ProgramRun) : Prop := s.closer ≠ .idle

/-- Steps of the program itself, and the answers to requests that are being answered: nothing comes from outside. -/
def FromInside (es : List ProgramEvent) : Prop := ∀ e ∈ es, e = .answer ∨ e = .internal

/-- However the program goes on by itself, after finitely many steps it is gone, with this exit status: there is a bound for the number of steps,
and where no step is possible any more, the process has exited. -/
def EndsWith (c : ProgramSetup) (s : ProgramRun) (status : Nat) : Prop :=
  ∃ bound : Nat, ∀ es t, ProgramPath c s es t → FromInside es →
    es.length ≤ bound ∧ ((∀ e u, (e = .answer ∨ e = .internal) → ¬ ProgramStep c t e u) → t.main = .exited status)

end Rodb.Spec
