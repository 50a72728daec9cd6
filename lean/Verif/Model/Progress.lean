import Verif.Model.Go
/-
  pkg/util/progress.go : the messages about the progress of building an index.
-/
namespace Rodb

/-- What `float64` does to a number that it cannot hold: it takes a number next to it. Simplification: no number here is too large for `float64`. -/
structure FloatRounding where
  round : Rat → Rat

/-- progress.go:30-31 : `int(math.Floor(float64(position) / float64(totalSize) * 100))`; the conversions, the division and the product are rounded. -/
def FloatRounding.percent (f : FloatRounding) (position totalSize : Int) : Int :=
  (f.round (f.round (f.round position / f.round totalSize) * 100)).floor

/-- The variables of the closure (progress.go:18, 25): the size, and the time before which nothing is shown. Times are in nanoseconds. -/
structure Progress where
  totalSize : Int
  nextProgress : Int

/-- A message (progress.go:32-35): when, the percentage and the offset. -/
structure ProgressMessage where
  time : Int
  percent : Int
  offset : Int
  deriving DecidableEq

/-- progress.go:14-25 : the inputs return the size 0 with an error (csv.go:110-117, pkg/input/json.go:90-97, xml.go:110-117). Simplification: the message that there will be no progress is left out. -/
def trackProgress (size : Res Int) (now : Int) : Progress :=
  match size with
  | .error _ => { totalSize := 0, nextProgress := now }
  | .ok totalSize => { totalSize := totalSize, nextProgress := now }

/-- progress.go:27-39, one call of the closure, for a record at `position`. -/
def Progress.update (f : FloatRounding) (p : Progress) (now position : Int) : Progress × Option ProgressMessage :=
  if p.totalSize ≠ 0 then
    if now > p.nextProgress then
      ({ p with nextProgress := now + 1000000000 }, some { time := now, percent := f.percent position p.totalSize, offset := position })
    else (p, none)
  else (p, none)

/-- The calls of the closure while an index is built (map.go:73, sqlite.go:159, fts5.go:163, wildcard.go:109), each with the time and the position of the record, and the messages. -/
def Progress.updates (f : FloatRounding) : Progress → List (Int × Int) → List ProgressMessage
  | _, [] => []
  | p, (now, position) :: rest =>
    match p.update f now position with
    | (p, some message) => message :: p.updates f rest
    | (p, none) => p.updates f rest

end Rodb
