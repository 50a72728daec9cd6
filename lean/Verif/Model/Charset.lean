import Verif.Model.Go
/-
  pkg/parser/string.go:47-59 under concurrency: one `encoding.Decoder` per parser, shared by all requests.
  `transform.NewReader` resets the decoder; reading then feeds it the text chunk by chunk.
-/
namespace Rodb

/-- A charset decoder: a state, its value after `Reset`, and what it does with a chunk of bytes.
Simplification: errors and partially consumed chunks are left out. -/
structure Decoder (σ : Type) where
  init : σ
  step : σ → Bytes → σ × Bytes

/-- One operation of a conversion on the shared decoder: `Reset` (called by `transform.NewReader`, string.go:49)
or `Transform` of a chunk (called by `ioutil.ReadAll`, string.go:50). -/
inductive DecodeOp where
  | reset
  | feed (chunk : Bytes)

/-- The operations of one conversion of a text read in the given chunks. -/
def conversion (chunks : List Bytes) : List DecodeOp := .reset :: chunks.map .feed

/-- A request in progress: the operations still to do and the text converted so far. -/
structure Conversion where
  ops : List DecodeOp
  out : Bytes

/-- The next operation of one request, done atomically on the shared decoder. -/
def decodeStep {σ : Type} (d : Decoder σ) (shared : σ) (c : Conversion) : σ × Conversion :=
  match c.ops with
  | [] => (shared, c)
  | .reset :: rest => (d.init, { c with ops := rest })
  | .feed chunk :: rest => ((d.step shared chunk).1, { ops := rest, out := c.out ++ (d.step shared chunk).2 })

/-- A run of several requests: the schedule names the request that does each operation. -/
def decodeRun {σ : Type} (d : Decoder σ) : List Nat → σ → List Conversion → List Conversion
  | [], _, cs => cs
  | i :: schedule, shared, cs =>
    match cs[i]? with
    | none => decodeRun d schedule shared cs
    | some c => decodeRun d schedule (decodeStep d shared c).1 (cs.set i (decodeStep d shared c).2)

/-- What a single request obtains: the chunks fed one after the other to a fresh decoder. -/
def decodeAlone {σ : Type} (d : Decoder σ) : σ → List Bytes → Bytes
  | _, [] => []
  | s, chunk :: rest => (d.step s chunk).2 ++ decodeAlone d (d.step s chunk).1 rest

end Rodb
