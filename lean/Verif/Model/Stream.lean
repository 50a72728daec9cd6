import Verif.Model.Go
/-
  pkg/index/wildcard/stream.go : the buffered index file.
-/
namespace Rodb

/-- `(*os.File).WriteAt(bs, off)` on a file with content `file`. Writing nothing does nothing;
writing past the end fills the hole with zeroes. I/O errors are not modelled here. -/
def fileWriteAt (file : Bytes) (off : Nat) (bs : Bytes) : Bytes :=
  if bs = [] then file
  else file.take off ++ List.replicate (off - file.length) 0 ++ bs ++ file.drop (off + bs.length)

/-- `(*os.File).ReadAt(make([]byte, n), off)`: all `n` bytes or `io.EOF`. -/
def fileReadAt (file : Bytes) (off n : Nat) : Res Bytes :=
  if off + n ≤ file.length ∨ n = 0 then .ok (slice file off n) else .error (.err "EOF")

/-- pkg/index/wildcard/stream.go:11-18 `type Stream`. `file` is the content of the `os.File`.
`log` is a ghost field: the `WriteAt` calls made so far, oldest first. `readerOffset` is never
used by the code and is left out. Offsets are naturals (Go: non-negative `int64`). -/
structure Stream where
  file : Bytes
  streamSize : Nat
  bufferOffset : Nat
  bufferMaxSize : Nat
  buffer : Bytes
  log : List (Nat × Bytes)
  deriving DecidableEq, Repr

/-- stream.go:9 `STREAM_BUFFER_SIZE`. -/
def streamBufferSize : Nat := 10000

/-- stream.go:20-31 `NewStream` on a file with the given content; the caller passes the file size
(wildcard.go:60 with a just created file, wildcard.go:159 with the `Stat` size). The buffer size is
a parameter here (the code always uses `STREAM_BUFFER_SIZE`). -/
def Stream.new (file : Bytes) (streamSize : Nat) (bufferMaxSize : Nat) : Stream :=
  { file := file, streamSize := streamSize, bufferOffset := streamSize,
    bufferMaxSize := bufferMaxSize, buffer := [], log := [] }

/-- stream.go:34-51 `Flush`. -/
def Stream.flush (s : Stream) : Stream :=
  if s.buffer.length = 0 then s
  else
    { s with
      file := fileWriteAt s.file s.bufferOffset s.buffer
      log := s.log ++ [(s.bufferOffset, s.buffer)]
      bufferOffset := s.streamSize
      buffer := [] }

/-- stream.go:86-108, second half of `Get`: `bytes` is what was already read from the file. -/
def Stream.getFromBuffer (s : Stream) (bytes : Bytes) (currentOffset remaining bytesCount : Nat) :
    Res Bytes :=
  let start := currentOffset - s.bufferOffset
  let stop := start + remaining
  if stop > s.buffer.length then .error (.err "Expected to read bytes from buffer")
  else if bytes.length > 0 then
    let bytes := bytes ++ slice s.buffer start remaining
    if bytes.length ≠ bytesCount then .error (.err "Expected to end-up with other length")
    else .ok bytes
  else .ok (slice s.buffer start remaining)

/-- stream.go:53-108 `Get`. -/
def Stream.get (s : Stream) (offset bytesCount : Nat) : Res Bytes :=
  if offset < s.bufferOffset then
    let toRead := if offset + bytesCount > s.bufferOffset then s.bufferOffset - offset else bytesCount
    match fileReadAt s.file offset toRead with
    | .error e => .error e
    | .ok bytesFromFile =>
      if toRead < bytesCount then
        s.getFromBuffer bytesFromFile s.bufferOffset (bytesCount - toRead) bytesCount
      else .ok bytesFromFile
  else s.getFromBuffer [] offset bytesCount bytesCount

/-- stream.go:146-148, the loop overwriting the part of the buffer that already exists. -/
def overwriteFrom : Bytes → Nat → Bytes → Bytes
  | [], _, _ => []
  | b :: bs, 0, r :: rs => let _ := b; r :: overwriteFrom bs 0 rs
  | b :: bs, 0, [] => b :: bs
  | b :: bs, k+1, rs => b :: overwriteFrom bs k rs

/-- stream.go:144-154, second half of `Replace`. A start beyond the end of the buffer makes the
slice expression of line 152 start at a negative index, a Go panic. -/
def Stream.replaceInBuffer (s : Stream) (currentOffset : Nat) (remainingBytes : Bytes) : Res Stream :=
  let start := currentOffset - s.bufferOffset
  let buffer := overwriteFrom s.buffer start remainingBytes
  -- len(remainingBytes) - (len(buffer) - start), possibly negative, as a Go int
  let remainingCount : Int := (remainingBytes.length : Int) - ((buffer.length : Int) - (start : Int))
  if remainingCount > 0 then
    if remainingCount > remainingBytes.length then .error (.panic "slice bounds out of range")
    else
      .ok { s with buffer := buffer ++ remainingBytes.drop (remainingBytes.length - remainingCount.toNat) }
  else .ok { s with buffer := buffer }

/-- stream.go:156-167, end of `Replace`. -/
def Stream.replaceEnd (s : Stream) (offset len : Nat) : Stream :=
  let s := if offset + len > s.streamSize then { s with streamSize := offset + len } else s
  if s.buffer.length > s.bufferMaxSize then s.flush else s

/-- stream.go:119-168 `Replace`; also returns the stream reached when it fails. -/
def Stream.replace (s : Stream) (offset : Nat) (bytes : Bytes) : Res Unit × Stream :=
  if offset < s.bufferOffset then
    let toWrite := if offset + bytes.length > s.bufferOffset then s.bufferOffset - offset else bytes.length
    let s := { s with
      file := fileWriteAt s.file offset (bytes.take toWrite)
      log := s.log ++ [(offset, bytes.take toWrite)] }
    if toWrite < bytes.length then
      match s.replaceInBuffer s.bufferOffset (bytes.drop toWrite) with
      | .error e => (.error e, s)
      | .ok s => (.ok (), s.replaceEnd offset bytes.length)
    else (.ok (), s.replaceEnd offset bytes.length)
  else
    match s.replaceInBuffer offset bytes with
    | .error e => (.error e, s)
    | .ok s => (.ok (), s.replaceEnd offset bytes.length)

/-- stream.go:110-117 `Add`. -/
def Stream.add (s : Stream) (bytes : Bytes) : Res Nat × Stream :=
  match s.replace s.streamSize bytes with
  | (.error e, s') => (.error e, s')
  | (.ok (), s') => (.ok s.streamSize, s')

/-! ### Code that works on a stream -/

/-- Go code reading and writing one `Stream`; the stream reached is kept when it fails. -/
def M (α : Type) := Stream → Res α × Stream

instance : Monad M where
  pure a := fun s => (.ok a, s)
  bind m f := fun s =>
    match m s with
    | (.ok a, s') => f a s'
    | (.error e, s') => (.error e, s')

/-- Fail with the given error. -/
def M.fail {α : Type} (e : Fail) : M α := fun s => (.error e, s)
/-- `stream.Add(bytes)`. -/
def mAdd (bytes : Bytes) : M Nat := fun s => s.add bytes
/-- `stream.Replace(offset, bytes)`. -/
def mReplace (offset : Nat) (bytes : Bytes) : M Unit := fun s => s.replace offset bytes
/-- `stream.Get(offset, n)`. -/
def mGet (offset n : Nat) : M Bytes := fun s => (s.get offset n, s)
/-- `stream.Flush()`. -/
def mFlush : M Unit := fun s => (.ok (), s.flush)
/-- Fuel for the loops that follow on-disk pointers (ghost: not in the code). Offsets are `int64`, so a
chain of 2^63 cells has visited one of them twice and never ends. -/
def maxFuel : Nat := 2^63
/-- Get that fuel. -/
def mFuel : M Nat := fun s => (.ok maxFuel, s)

end Rodb
