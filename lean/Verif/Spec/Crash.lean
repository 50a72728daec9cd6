import Verif.Model.Stream
/-
  Specification vocabulary: what a crash leaves of a file.
-/
namespace Rodb

/-- Apply a list of writes (offset, bytes), oldest first, to a file. -/
def replay (f : Bytes) (log : List (Nat × Bytes)) : Bytes := log.foldl (fun f e => fileWriteAt f e.1 e.2) f

/-- The just created file after a crash: the first `k` writes are done, and of the next one only the
first `j` bytes. -/
def crashFile (log : List (Nat × Bytes)) (k j : Nat) : Bytes :=
  match log[k]? with
  | none => replay [] (log.take k)
  | some e => fileWriteAt (replay [] (log.take k)) e.1 (e.2.take j)

end Rodb
