/-
  cmd/main.go, pkg/service/service.go and pkg/service/http.go : the end of the program after a signal.
-/
namespace Rodb

/-- One `http.Server`: whether its `Serve` call still runs (http.go:85-105), and how many requests it is answering. -/
structure ServerState where
  serving : Bool
  inFlight : Nat
  deriving DecidableEq

/-- main.go:113-118: waiting for the services, then running the deferred functions (54-58, 66-70, 78-82, 90-94) that close outputs, indexes, inputs
and parsers, then gone. -/
inductive MainState where
  | waiting
  | closing
  | exited
  deriving DecidableEq

/-- main.go:102-111: the goroutine that waits for a signal and then closes the services, one server after the other (pkg/service/service.go:64-72,
http.go:313-327); `shutting i`: `Shutdown` of server number `i` was called and has not returned. -/
inductive CloserState where
  | idle
  | shutting (i : Nat)
  | done
  deriving DecidableEq

/-- The program. The servers are in the order in which they are closed: the services in the order of `range`, the http server of each one
before its https server. -/
structure Program where
  servers : List ServerState
  main : MainState
  closer : CloserState
  deriving DecidableEq

/-- Change server number `i`. -/
def Program.update (p : Program) (i : Nat) (f : ServerState → ServerState) : Program :=
  { p with servers := p.servers.modify i f }

/-- What may happen next. `net/http` promises: `Shutdown` makes `Serve` return at once, accepts no more requests, and itself returns when no
request is in flight; the timeout is `context.Background()`, that is none. Simplifications: no listener fails by itself; a connection without a
request does not count. -/
inductive Program.Step : Program → Program → Prop where
  /-- A request arrives. -/
  | accept {p : Program} {i : Nat} {s : ServerState} : p.main ≠ .exited → p.servers[i]? = some s → s.serving = true →
      Step p (p.update i (fun s => { s with inFlight := s.inFlight + 1 }))
  /-- A request is answered. -/
  | finish {p : Program} {i : Nat} {s : ServerState} : p.main ≠ .exited → p.servers[i]? = some s → s.inFlight ≠ 0 →
      Step p (p.update i (fun s => { s with inFlight := s.inFlight - 1 }))
  /-- main.go:105-108, http.go:314-315 : a signal arrives, the first server is told to stop. -/
  | signal {p : Program} : p.main ≠ .exited → p.closer = .idle →
      Step p { p.update 0 (fun s => { s with serving := false }) with closer := .shutting 0 }
  /-- http.go:315-321, pkg/service/service.go:65-69 : a server is done, the next one is told to stop. -/
  | next {p : Program} {i : Nat} {s t : ServerState} : p.main ≠ .exited → p.closer = .shutting i → p.servers[i]? = some s → s.inFlight = 0 →
      p.servers[i + 1]? = some t → Step p { p.update (i + 1) (fun s => { s with serving := false }) with closer := .shutting (i + 1) }
  /-- The last server is done. -/
  | last {p : Program} {i : Nat} {s : ServerState} : p.main ≠ .exited → p.closer = .shutting i → p.servers[i]? = some s → s.inFlight = 0 →
      p.servers[i + 1]? = none → Step p { p with closer := .done }
  /-- pkg/service/service.go:54-62, http.go:301-311 : all the `Serve` calls have returned, `main` goes on. -/
  | wake {p : Program} : p.main = .waiting → (∀ s ∈ p.servers, s.serving = false) → Step p { p with main := .closing }
  /-- The deferred functions are done. -/
  | exit {p : Program} : p.main = .closing → Step p { p with main := .exited }

/-- The program after `n` servers were started (main.go:96, http.go:79-106). -/
def Program.started (n : Nat) : Program :=
  { servers := List.replicate n { serving := true, inFlight := 0 }, main := .waiting, closer := .idle }

/-- The states that can be reached from the start. -/
inductive Program.Reachable (n : Nat) : Program → Prop where
  | start : Reachable n (Program.started n)
  | step {p q : Program} : Reachable n p → Program.Step p q → Reachable n q

end Rodb
