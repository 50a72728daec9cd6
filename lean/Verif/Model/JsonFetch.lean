import Verif.Model.Reader
/-
  pkg/input/json.go : concurrent calls of `Get`, which share one open file and its offset.
-/
namespace Rodb

/-- pkg/input/json.go:78-87 : the end of `Get`, from the bytes the decoder has read since the position. -/
def jsonGetResult (decode : JsonDecoder) (position : Nat) (got : Bytes) : Res Rec :=
  match decode (got.dropWhile isJsonSpace) with
  | (.doc data, _) => .ok (jsonRecord data position)
  | (.bad, _) => .error (.err "Cannot read json data")

/-- A request inside `Get` (pkg/input/json.go:65-88): before the lock, with the lock, after the `Seek`, with a decoder that has read some bytes,
with its answer, and after the unlock. -/
inductive JsonFetchState where
  | waiting
  | locked
  | sought
  | reading (got : Bytes)
  | answered (a : Res Rec)
  | done (a : Res Rec)

/-- A request and the position it asked for. -/
structure JsonFetch where
  position : Nat
  state : JsonFetchState

/-- All the requests, the lock, and the offset of the open file they share (pkg/input/json.go:15-21). -/
structure JsonFetchSystem where
  locked : Bool
  offset : Nat
  fetches : List JsonFetch

/-- Request `i` comes to another state. -/
def JsonFetchSystem.put (s : JsonFetchSystem) (i : Nat) (f : JsonFetch) (state : JsonFetchState) : JsonFetchSystem :=
  { s with fetches := s.fetches.set i { f with state := state } }

/-- One step of one request, in a file of this content. The decoder reads as many bytes at a time as it likes, and may stop as soon as what follows
cannot change its answer: nothing else is assumed of when `encoding/json` stops. -/
inductive JsonFetchSystem.Step (decode : JsonDecoder) (content : Bytes) : JsonFetchSystem → JsonFetchSystem → Prop where
  /-- pkg/input/json.go:66. -/
  | lock {s : JsonFetchSystem} {i : Nat} {f : JsonFetch} : s.fetches[i]? = some f → f.state = .waiting → s.locked = false →
      Step decode content s { s.put i f .locked with locked := true }
  /-- pkg/input/json.go:69. -/
  | seek {s : JsonFetchSystem} {i : Nat} {f : JsonFetch} : s.fetches[i]? = some f → f.state = .locked →
      Step decode content s { s.put i f .sought with offset := f.position }
  /-- pkg/input/json.go:76. -/
  | start {s : JsonFetchSystem} {i : Nat} {f : JsonFetch} : s.fetches[i]? = some f → f.state = .sought →
      Step decode content s (s.put i f (.reading []))
  /-- pkg/input/json.go:79 : the decoder reads at most `n + 1` bytes of the file. -/
  | read {s : JsonFetchSystem} {i : Nat} {f : JsonFetch} {got : Bytes} (n : Nat) : s.fetches[i]? = some f → f.state = .reading got →
      Step decode content s
        { s.put i f (.reading (got ++ (content.drop s.offset).take (n + 1))) with
          offset := s.offset + ((content.drop s.offset).take (n + 1)).length }
  /-- pkg/input/json.go:79 : the decoder has read enough. -/
  | enough {s : JsonFetchSystem} {i : Nat} {f : JsonFetch} {got : Bytes} : s.fetches[i]? = some f → f.state = .reading got →
      (∀ more, jsonGetResult decode f.position (got ++ more) = jsonGetResult decode f.position got) →
      Step decode content s (s.put i f (.answered (jsonGetResult decode f.position got)))
  /-- pkg/input/json.go:79 : the decoder is at the end of the file. -/
  | eof {s : JsonFetchSystem} {i : Nat} {f : JsonFetch} {got : Bytes} : s.fetches[i]? = some f → f.state = .reading got →
      content.drop s.offset = [] → Step decode content s (s.put i f (.answered (jsonGetResult decode f.position got)))
  /-- pkg/input/json.go:67. -/
  | unlock {s : JsonFetchSystem} {i : Nat} {f : JsonFetch} {a : Res Rec} : s.fetches[i]? = some f → f.state = .answered a →
      Step decode content s { s.put i f (.done a) with locked := false }

/-- Any number of steps, of any requests. -/
inductive JsonFetchSystem.Run (decode : JsonDecoder) (content : Bytes) : JsonFetchSystem → JsonFetchSystem → Prop where
  | refl {s : JsonFetchSystem} : Run decode content s s
  | step {s t u : JsonFetchSystem} : Run decode content s t → Step decode content t u → Run decode content s u

end Rodb
