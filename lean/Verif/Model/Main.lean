/-
  cmd/main.go, pkg/service/service.go and pkg/service/http.go : the whole life of the program once the services are up: servers that fail by
  themselves, the signal, and the exit status. (Model/Shutdown.lean has the smaller model, without failures, that is used for C55.)
-/
namespace Rodb

/-- The two servers a service may have (pkg/service/http.go:79-106). -/
inductive Protocol where
  | http
  | https
  deriving DecidableEq

/-- What became of the `Serve` (or `ServeTLS`) call of one server: there is none, because the configuration does not ask for it
(pkg/service/http.go:79, 91); it runs; it returned `http.ErrServerClosed`; it returned another error (88, 100-104), for example because the
certificate cannot be read. -/
inductive ServerStatus where
  | absent
  | serving
  | closed
  | failed
  deriving DecidableEq

/-- One `http.Server`, and how many requests it is answering. -/
structure ServerRun where
  status : ServerStatus
  inFlight : Nat
  deriving DecidableEq

/-- cmd/main.go:113-118. `waiting k`: `Wait` has returned without an error for the first `k` services it visits
(pkg/service/service.go:54-62). `closing`: the deferred functions run (cmd/main.go:90-94, 78-82, 66-70, 54-58); their errors are only logged.
`exited`: the process is gone, with this status. -/
inductive MainRun where
  | waiting (k : Nat)
  | closing
  | exited (status : Nat)
  deriving DecidableEq

/-- The goroutine of cmd/main.go:102-111. `shutting k p called`: `Close` is done with the first `k` services it visits
(pkg/service/service.go:64-72), and is at the server `p` of the next one; its `Shutdown` has been called or not
(pkg/service/http.go:313-325). `waiting k`: `Close` of that service is in its final `Wait` (326). `ended`: the goroutine is gone. -/
inductive CloserRun where
  | idle
  | shutting (k : Nat) (p : Protocol) (called : Bool)
  | waiting (k : Nat)
  | ended
  deriving DecidableEq

/-- What is fixed when the services are up: how many services there are, which servers each of them has, and the orders in which the two `range`
loops over the map of services visit them (pkg/service/service.go:55 and 65), which need not be the same. -/
structure ProgramSetup where
  services : Nat
  has : Nat → Protocol → Bool
  waitOrder : List Nat
  closeOrder : List Nat

/-- The program: the servers by service and protocol, the main goroutine and the goroutine that waits for the signal. -/
structure ProgramRun where
  server : Nat → Protocol → ServerRun
  main : MainRun
  closer : CloserRun

/-- Change one server. -/
def ProgramRun.update (s : ProgramRun) (i : Nat) (p : Protocol) (f : ServerRun → ServerRun) : ProgramRun :=
  { s with server := fun j q => if j = i ∧ q = p then f (s.server j q) else s.server j q }

/-- pkg/service/http.go:302 : the wait group of service `i` is at zero, as both `Serve` calls, as far as there are any, have returned. -/
def ProgramRun.stopped (s : ProgramRun) (i : Nat) : Prop := ∀ p, (s.server i p).status ≠ .serving

/-- pkg/service/http.go:303-308 : `Wait` of service `i` returns an error. -/
def ProgramRun.failed (s : ProgramRun) (i : Nat) : Prop := ∃ p, (s.server i p).status = .failed

/-- `Shutdown` makes `Serve` return `http.ErrServerClosed`; it does nothing to a server whose `Serve` has already returned. -/
def ServerRun.shutdown (r : ServerRun) : ServerRun :=
  { r with status := if r.status = .serving then .closed else r.status }

/-- What is seen of a step from outside. -/
inductive ProgramEvent where
  | request
  | answer
  | failure
  | signal
  | internal
  deriving DecidableEq

/-- What may happen next, as long as the process is there. `net/http` promises: `Shutdown` makes `Serve` return at once and returns itself when
no request is in flight; the context is `context.Background()`, so there is no timeout and no error. Simplifications: a connection without a
request does not count; a signal that comes before `signal.Notify` (cmd/main.go:104) or that cannot be caught is not considered; the deferred
functions return. -/
inductive ProgramStep (c : ProgramSetup) : ProgramRun → ProgramEvent → ProgramRun → Prop where
  /-- A request arrives at a server. -/
  | request {s : ProgramRun} {i : Nat} {p : Protocol} : (∀ x, s.main ≠ .exited x) → (s.server i p).status = .serving →
      ProgramStep c s .request (s.update i p (fun r => { r with inFlight := r.inFlight + 1 }))
  /-- A request is answered. -/
  | answer {s : ProgramRun} {i : Nat} {p : Protocol} : (∀ x, s.main ≠ .exited x) → i < c.services → (s.server i p).inFlight ≠ 0 →
      ProgramStep c s .answer (s.update i p (fun r => { r with inFlight := r.inFlight - 1 }))
  /-- pkg/service/http.go:88, 100-104 : `Serve` returns an error by itself. -/
  | failure {s : ProgramRun} {i : Nat} {p : Protocol} : (∀ x, s.main ≠ .exited x) → (s.server i p).status = .serving →
      ProgramStep c s .failure (s.update i p (fun r => { r with status := .failed }))
  /-- cmd/main.go:105-108 : a signal arrives. -/
  | signal {s : ProgramRun} : (∀ x, s.main ≠ .exited x) → s.closer = .idle →
      ProgramStep c s .signal { s with closer := .shutting 0 .http false }
  /-- pkg/service/http.go:315, 321 : `Shutdown` is called. -/
  | call {s : ProgramRun} {k i : Nat} {p : Protocol} : (∀ x, s.main ≠ .exited x) → s.closer = .shutting k p false → c.closeOrder[k]? = some i →
      ProgramStep c s .internal { s.update i p ServerRun.shutdown with closer := .shutting k p true }
  /-- pkg/service/http.go:315-318 : `Shutdown` of the http server returns. -/
  | nextHttps {s : ProgramRun} {k i : Nat} : (∀ x, s.main ≠ .exited x) → s.closer = .shutting k .http true → c.closeOrder[k]? = some i →
      (s.server i .http).inFlight = 0 → ProgramStep c s .internal { s with closer := .shutting k .https false }
  /-- pkg/service/http.go:321-326 : `Shutdown` of the https server returns. -/
  | nextWait {s : ProgramRun} {k i : Nat} : (∀ x, s.main ≠ .exited x) → s.closer = .shutting k .https true → c.closeOrder[k]? = some i →
      (s.server i .https).inFlight = 0 → ProgramStep c s .internal { s with closer := .waiting k }
  /-- pkg/service/http.go:326, pkg/service/service.go:65 : the service is closed, `Close` goes on with the next one. -/
  | nextService {s : ProgramRun} {k i : Nat} : (∀ x, s.main ≠ .exited x) → s.closer = .waiting k → c.closeOrder[k]? = some i →
      s.stopped i → ¬ s.failed i → ProgramStep c s .internal { s with closer := .shutting (k + 1) .http false }
  /-- pkg/service/service.go:66-68 : `Wait` returned the error of a server; `Close` gives up. -/
  | giveUp {s : ProgramRun} {k i : Nat} : (∀ x, s.main ≠ .exited x) → s.closer = .waiting k → c.closeOrder[k]? = some i →
      s.stopped i → s.failed i → ProgramStep c s .internal { s with closer := .ended }
  /-- pkg/service/service.go:71 : all the services are closed. -/
  | closed {s : ProgramRun} {k : Nat} : (∀ x, s.main ≠ .exited x) → s.closer = .shutting k .http false → c.closeOrder[k]? = none →
      ProgramStep c s .internal { s with closer := .ended }
  /-- pkg/service/service.go:55 : `Wait` goes on with the next service. -/
  | wait {s : ProgramRun} {k i : Nat} : s.main = .waiting k → c.waitOrder[k]? = some i → s.stopped i → ¬ s.failed i →
      ProgramStep c s .internal { s with main := .waiting (k + 1) }
  /-- pkg/service/service.go:56-58, cmd/main.go:113-117 : `Wait` returns the error of a server; the deferred functions do not run. -/
  | abort {s : ProgramRun} {k i : Nat} : s.main = .waiting k → c.waitOrder[k]? = some i → s.stopped i → s.failed i →
      ProgramStep c s .internal { s with main := .exited 1 }
  /-- pkg/service/service.go:61, cmd/main.go:118 : all the services have ended. -/
  | leave {s : ProgramRun} {k : Nat} : s.main = .waiting k → c.waitOrder[k]? = none →
      ProgramStep c s .internal { s with main := .closing }
  /-- The deferred functions are done. -/
  | exit {s : ProgramRun} : s.main = .closing → ProgramStep c s .internal { s with main := .exited 0 }

/-- The program when the services are up (cmd/main.go:96-113, pkg/service/http.go:79-106). -/
def ProgramRun.started (c : ProgramSetup) : ProgramRun :=
  { server := fun i p => { status := if i < c.services ∧ c.has i p = true then .serving else .absent, inFlight := 0 }
    main := .waiting 0, closer := .idle }

/-- Sequences of steps. -/
inductive ProgramPath (c : ProgramSetup) : ProgramRun → List ProgramEvent → ProgramRun → Prop where
  | nil {s : ProgramRun} : ProgramPath c s [] s
  | snoc {s t u : ProgramRun} {es : List ProgramEvent} {e : ProgramEvent} : ProgramPath c s es t → ProgramStep c t e u →
      ProgramPath c s (es ++ [e]) u

end Rodb
