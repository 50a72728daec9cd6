import Verif.Model.Stream
/-
  pkg/index/wildcard/position.go and node.go : on-disk position lists and tree nodes.
  The receiver's `stream` field is the state of the monad `M`.
-/
namespace Rodb

/-- position.go:12-17 `type PositionLinkedList`. -/
structure PosNode where
  offset : Nat
  position : Int
  next : Nat
  deriving DecidableEq, Repr

/-- position.go:10 `PositionLinkedListSize`. -/
def posNodeSize : Nat := 16

/-- position.go:95-102 `Serialize`. -/
def PosNode.serialize (l : PosNode) : Bytes := toBE 8 (toU64 l.position) ++ toBE 8 l.next

/-- position.go:104-107 `Unserialize`. Offsets are kept as unsigned words (Go: `int64`; they differ
only for a corrupted file holding an offset of 2^63 or more). -/
def PosNode.unserialize (offset : Nat) (data : Bytes) : PosNode :=
  { offset := offset, position := toI64 (ofBE (slice data 0 8)), next := ofBE (slice data 8 8) }

/-- position.go:72-93 `GetPositionLinkedList`. -/
def getPos (offset : Nat) : M (Option PosNode) :=
  if offset = 0 then pure none
  else do
    let serialized ← mGet offset posNodeSize
    pure (some (PosNode.unserialize offset serialized))

/-- position.go:109-123 `Save` (returns the node with its possibly new offset). -/
def PosNode.save (l : PosNode) : M PosNode :=
  if l.offset = 0 then do
    let newOffset ← mAdd l.serialize
    pure { l with offset := newOffset }
  else do
    mReplace l.offset l.serialize
    pure l

/-- position.go:23-39 `NewPositionLinkedList`. -/
def newPos (position : Int) : M PosNode :=
  PosNode.save { offset := 0, position := position, next := 0 }

/-- position.go:158-175, the loop of `Copy`; returns the last copied node. -/
def copyLoop : Nat → Option PosNode → PosNode → M PosNode
  | 0, _, _ => M.fail .diverge
  | _+1, none, last => pure last
  | fuel+1, some current, last => do
    let newCurrent ← newPos current.position
    let _ ← PosNode.save { last with next := newCurrent.offset }
    let current' ← getPos current.next
    copyLoop fuel current' newCurrent

/-- position.go:142-178 `Copy`; returns the first and last node of the copy. The `next` field of the
returned in-memory first node is not used by the callers (they only use its offset). -/
def PosNode.copy (l : PosNode) : M (PosNode × PosNode) := do
  let first ← newPos l.position
  let current ← getPos l.next
  let fuel ← mFuel
  let last ← copyLoop fuel current first
  pure (first, last)

/-- position.go:125-140 `Iterate`: one call of the iterator, on the captured variable `current`.
Returns the yielded position (or none at the end) and the new value of the variable. If reading the
next cell fails, `current` becomes nil and the error is returned. -/
def iterateStep (current : Option PosNode) : M (Option Int × Option PosNode) :=
  match current with
  | none => pure (none, none)
  | some c => do
    let next ← getPos c.next
    pure (some c.position, next)

/-- node.go:14-24 `type TreeNode`. -/
structure TreeNode where
  offset : Nat
  valueOffset : Nat
  valueLength : Nat
  nextSibling : Nat
  firstChild : Nat
  lastChild : Nat
  firstPosition : Nat
  lastPosition : Nat
  deriving DecidableEq, Repr

/-- node.go:12 `TreeNodeSize`. -/
def treeNodeSize : Nat := 56

/-- node.go:92-104 `Serialize`. -/
def TreeNode.serialize (n : TreeNode) : Bytes :=
  toBE 8 n.valueOffset ++ toBE 8 n.valueLength ++ toBE 8 n.nextSibling ++ toBE 8 n.firstChild ++
    toBE 8 n.lastChild ++ toBE 8 n.firstPosition ++ toBE 8 n.lastPosition

/-- node.go:106-114 `Unserialize` (words kept unsigned, as in `PosNode.unserialize`). -/
def TreeNode.unserialize (offset : Nat) (data : Bytes) : TreeNode :=
  { offset := offset
    valueOffset := ofBE (slice data 0 8)
    valueLength := ofBE (slice data 8 8)
    nextSibling := ofBE (slice data 16 8)
    firstChild := ofBE (slice data 24 8)
    lastChild := ofBE (slice data 32 8)
    firstPosition := ofBE (slice data 40 8)
    lastPosition := ofBE (slice data 48 8) }

/-- node.go:26-43 `NewEmptyTreeNode`. -/
def newEmptyTreeNode : M TreeNode := do
  let offset ← mAdd (List.replicate treeNodeSize 0)
  pure { offset := offset, valueOffset := 0, valueLength := 0, nextSibling := 0, firstChild := 0,
         lastChild := 0, firstPosition := 0, lastPosition := 0 }

/-- node.go:45-66 `GetTreeNode`. -/
def getTreeNode (offset : Nat) : M (Option TreeNode) :=
  if offset = 0 then pure none
  else do
    let serialized ← mGet offset treeNodeSize
    pure (some (TreeNode.unserialize offset serialized))

/-- node.go:88-90 `Value`. -/
def TreeNode.value (n : TreeNode) : M Bytes := mGet n.valueOffset n.valueLength

/-- node.go:116-122 `Save`. -/
def TreeNode.save (n : TreeNode) : M Unit := mReplace n.offset n.serialize

/-- node.go:124-142 `AppendChild`; returns the updated receiver. -/
def TreeNode.appendChild (n : TreeNode) (child : TreeNode) : M TreeNode :=
  if n.firstChild = 0 then do
    let n := { n with firstChild := child.offset, lastChild := child.offset }
    n.save
    pure n
  else do
    let lastChild ← getTreeNode n.lastChild
    match lastChild with
    | none => M.fail (.panic "nil pointer dereference")
    | some lastChild =>
      TreeNode.save { lastChild with nextSibling := child.offset }
      let n := { n with lastChild := child.offset }
      n.save
      pure n

/-- node.go:163-170, the loop counting the common leading bytes. -/
def commonPrefixLen : Bytes → Bytes → Nat
  | a :: as, b :: bs => if a = b then commonPrefixLen as bs + 1 else 0
  | _, _ => 0

/-- node.go:157-182, the loop of `FindChildByPrefix` over the siblings. -/
def findChildLoop (value : Bytes) : Nat → Option TreeNode → M (Option (TreeNode × Nat))
  | 0, _ => M.fail .diverge
  | _+1, none => pure none
  | fuel+1, some child => do
    let childValue ← child.value
    let commonBytes := commonPrefixLen childValue value
    if commonBytes > 0 then pure (some (child, commonBytes))
    else do
      let next ← getTreeNode child.nextSibling
      findChildLoop value fuel next

/-- node.go:145-183 `FindChildByPrefix`. -/
def TreeNode.findChildByPrefix (n : TreeNode) (value : Bytes) : M (Option (TreeNode × Nat)) := do
  let child ← getTreeNode n.firstChild
  let fuel ← mFuel
  findChildLoop value fuel child

/-- node.go:186-213 `AppendPositionIfNotExists`; returns the updated receiver. -/
def TreeNode.appendPositionIfNotExists (n : TreeNode) (position : Int) : M TreeNode := do
  let positionNode ← newPos position
  if n.firstPosition = 0 then do
    let n := { n with firstPosition := positionNode.offset, lastPosition := positionNode.offset }
    n.save
    pure n
  else do
    let last ← getPos n.lastPosition
    match last with
    | none => M.fail (.panic "nil pointer dereference")
    | some last =>
      if last.position ≠ position then do
        let _ ← PosNode.save { last with next := positionNode.offset }
        let n := { n with lastPosition := positionNode.offset }
        n.save
        pure n
      else pure n

/-- node.go:257-284, the first case of `addSequence`: no child shares a prefix, append a new leaf.
Returns the updated parent. -/
def addLeaf (parent : TreeNode) (remaining : Bytes) (offsetInStream : Nat) (position : Int) :
    M TreeNode := do
  let positionList ← newPos position
  let newNode ← newEmptyTreeNode
  let newNode : TreeNode :=
    { newNode with
      valueOffset := offsetInStream
      valueLength := remaining.length
      nextSibling := 0
      firstChild := 0
      lastChild := 0
      firstPosition := positionList.offset
      lastPosition := positionList.offset }
  newNode.save
  parent.appendChild newNode

/-- node.go:288-320, the second case of `addSequence`: the child's value only starts with the
common bytes, split it. Returns the updated child. -/
def splitNode (existing : TreeNode) (commonBytes : Nat) : M TreeNode := do
  let firstPosition ← getPos existing.firstPosition
  match firstPosition with
  | none => M.fail (.panic "nil pointer dereference")
  | some firstPosition =>
    let (first, last) ← firstPosition.copy
    let newChild ← newEmptyTreeNode
    let newChild : TreeNode :=
      { newChild with
        valueOffset := existing.valueOffset + commonBytes
        valueLength := existing.valueLength - commonBytes
        nextSibling := 0
        firstChild := existing.firstChild
        lastChild := existing.lastChild
        firstPosition := first.offset
        lastPosition := last.offset }
    newChild.save
    let existing : TreeNode :=
      { existing with
        firstChild := newChild.offset
        lastChild := newChild.offset
        valueLength := commonBytes }
    existing.save
    pure existing

/-- node.go:286-320: split the child only when the common bytes do not cover its whole value. -/
def splitIfPartial (existing : TreeNode) (commonBytes : Nat) : M TreeNode :=
  if commonBytes < existing.valueLength then splitNode existing commonBytes
  else pure existing

/-- node.go:239-330 `addSequence`, from one iteration of its loop on. `remaining` and
`offsetInStream` are `bytes[currentPosition:]` and `bytesOffsetInStream + currentPosition`. The loop
body mutates the node `parentNode` points to; only the node the caller holds (the first parent) is
visible afterwards, and it is returned. -/
def addSequenceLoop : Nat → TreeNode → Bytes → Nat → Int → M TreeNode
  | 0, _, _, _, _ => M.fail .diverge
  | fuel+1, parent, remaining, offsetInStream, position =>
    if remaining.length = 0 then pure parent
    else do
      let found ← parent.findChildByPrefix remaining
      match found with
      | none => addLeaf parent remaining offsetInStream position
      | some (existing, commonBytes) =>
        let existing ← splitIfPartial existing commonBytes
        let existing ← existing.appendPositionIfNotExists position
        let _ ← addSequenceLoop fuel existing (remaining.drop commonBytes)
          (offsetInStream + commonBytes) position
        pure parent

/-- node.go:239-330 `addSequence` on the whole sequence. Every iteration consumes at least one byte,
so the fuel is the length plus one. -/
def TreeNode.addSequence (n : TreeNode) (bytes : Bytes) (offsetInStream : Nat) (position : Int) :
    M TreeNode :=
  addSequenceLoop (bytes.length + 1) n bytes offsetInStream position

/-- node.go:230-234, the loop of `AddAllSequences` over the suffixes. -/
def addSuffixes : TreeNode → Bytes → Nat → Int → M TreeNode
  | n, [], _, _ => pure n
  | n, b :: bs, offsetInStream, position => do
    let n ← n.addSequence (b :: bs) offsetInStream position
    addSuffixes n bs (offsetInStream + 1) position

/-- node.go:224-237 `AddAllSequences`; returns the updated receiver. -/
def TreeNode.addAllSequences (n : TreeNode) (bytes : Bytes) (position : Int) : M TreeNode := do
  let bytesOffset ← mAdd bytes
  addSuffixes n bytes bytesOffset position

/-- node.go:335-349, the loop of `GetSequence`. -/
def getSequenceLoop : Nat → TreeNode → Bytes → M (Option TreeNode)
  | 0, _, _ => M.fail .diverge
  | fuel+1, parent, bytes =>
    if bytes.length = 0 then pure (some parent)
    else do
      let found ← parent.findChildByPrefix bytes
      match found with
      | none => pure none
      | some (current, commonBytes) =>
        if commonBytes < current.valueLength ∧ commonBytes < bytes.length then pure none
        else getSequenceLoop fuel current (bytes.drop current.valueLength)

/-- node.go:332-352 `GetSequence`. -/
def TreeNode.getSequence (n : TreeNode) (bytes : Bytes) : M (Option PosNode) := do
  let node ← getSequenceLoop (bytes.length + 1) n bytes
  match node with
  | none => pure none
  | some node => getPos node.firstPosition

end Rodb
