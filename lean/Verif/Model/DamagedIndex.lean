import Verif.Model.Wildcard
/-
  pkg/index/wildcard: searching in a file with any content.

  Model/WildcardNode.lean keeps the offsets and lengths of a file as unsigned words, which is right for the files the program writes. Here they are signed, as in the code, and the reservation of
  memory can fail, so that the search in a damaged file is what the program does. The file was opened by `loadIndex`, so that nothing is in the buffer of the stream.
-/
namespace Rodb

/-- The result of an addition of two `int64` in Go. -/
def wrap64 (i : Int) : Int := toI64 (toU64 i)

/-- wildcard/stream.go:53-108 `Get` with an empty buffer at the end of the file. `memory` is the largest number of bytes for which `make` (line 54 and 64) does not end the program. -/
def signedGet (file : Bytes) (memory : Nat) (offset count : Int) : Res Bytes :=
  if count < 0 ∨ memory < count then .error (.panic "makeslice: cap out of range")
  else if offset < file.length then
    let toRead := if wrap64 (offset + count) > file.length then file.length - offset else count
    if offset < 0 then .error (.err "negative offset")
    else
      match fileReadAt file offset.toNat toRead.toNat with
      | .error e => .error e
      | .ok bytes => if toRead < count then .error (.err "Expected to read bytes from buffer") else .ok bytes
  else
    let stop := wrap64 (offset - file.length + count)
    if stop > 0 then .error (.err "Expected to read bytes from buffer")
    else if stop < 0 then .error (.panic "slice bounds out of range")
    else .ok []

/-- wildcard/node.go:14-24 `type TreeNode`; what a search does not use is left out. -/
structure SignedNode where
  valueOffset : Int
  valueLength : Int
  nextSibling : Int
  firstChild : Int
  firstPosition : Int
  deriving DecidableEq, Repr

/-- wildcard/node.go:106-114 `Unserialize`. -/
def SignedNode.unserialize (data : Bytes) : SignedNode :=
  { valueOffset := toI64 (ofBE (slice data 0 8))
    valueLength := toI64 (ofBE (slice data 8 8))
    nextSibling := toI64 (ofBE (slice data 16 8))
    firstChild := toI64 (ofBE (slice data 24 8))
    firstPosition := toI64 (ofBE (slice data 40 8)) }

/-- wildcard/node.go:45-66 `GetTreeNode`. -/
def signedNode (file : Bytes) (memory : Nat) (offset : Int) : Res (Option SignedNode) :=
  if offset = 0 then .ok none
  else do
    let serialized ← signedGet file memory offset treeNodeSize
    .ok (some (SignedNode.unserialize serialized))

/-- wildcard/node.go:157-182, the loop of `FindChildByPrefix` over the siblings. -/
def signedSiblings (file : Bytes) (memory : Nat) (value : Bytes) : Nat → Option SignedNode → Res (Option (SignedNode × Nat))
  | 0, _ => .error .diverge
  | _+1, none => .ok none
  | fuel+1, some child => do
    let childValue ← signedGet file memory child.valueOffset child.valueLength
    let commonBytes := commonPrefixLen childValue value
    if commonBytes > 0 then .ok (some (child, commonBytes))
    else do
      let next ← signedNode file memory child.nextSibling
      signedSiblings file memory value fuel next

/-- wildcard/node.go:145-183 `FindChildByPrefix`. -/
def SignedNode.findChild (file : Bytes) (memory fuel : Nat) (n : SignedNode) (value : Bytes) : Res (Option (SignedNode × Nat)) := do
  let child ← signedNode file memory n.firstChild
  signedSiblings file memory value fuel child

/-- wildcard/node.go:335-349, the loop of `GetSequence`; `fuel` bounds every loop over siblings, `rounds` the rounds of this loop. -/
def signedSequence (file : Bytes) (memory fuel : Nat) : Nat → SignedNode → Bytes → Res (Option SignedNode)
  | 0, _, _ => .error .diverge
  | rounds+1, parent, bytes =>
    if bytes.length = 0 then .ok (some parent)
    else do
      let found ← parent.findChild file memory fuel bytes
      match found with
      | none => .ok none
      | some (current, commonBytes) =>
        if commonBytes < current.valueLength ∧ commonBytes < bytes.length then .ok none
        else signedSequence file memory fuel rounds current (bytes.drop current.valueLength.toNat)

/-- wildcard/position.go:72-93 `GetPositionLinkedList`: the position and the offset of the next one. -/
def signedPos (file : Bytes) (memory : Nat) (offset : Int) : Res (Option (Int × Int)) :=
  if offset = 0 then .ok none
  else do
    let serialized ← signedGet file memory offset posNodeSize
    .ok (some (toI64 (ofBE (slice serialized 0 8)), toI64 (ofBE (slice serialized 8 8))))

/-- wildcard/node.go:332-352 `GetSequence` for the node that `GetRootNode` (wildcard/metadata.go:92-94) read at the offset `root`, with `fuel` for its loops; a root that is missing is a nil pointer. -/
def searchFile (file : Bytes) (memory fuel : Nat) (root : Int) (bytes : Bytes) : Res (Option (Int × Int)) := do
  match ← signedNode file memory root with
  | none => .error (.panic "nil pointer dereference")
  | some node =>
    match ← signedSequence file memory fuel fuel node bytes with
    | none => .ok none
    | some node => signedPos file memory node.firstPosition

/-- wildcard/position.go:125-140 `Iterate`: one call, for the current element: the position and the next element. -/
def signedStep (file : Bytes) (memory : Nat) (current : Option (Int × Int)) : Res (Option Int × Option (Int × Int)) :=
  match current with
  | none => .ok (none, none)
  | some (position, next) => do
    let next ← signedPos file memory next
    .ok (some position, next)

end Rodb
