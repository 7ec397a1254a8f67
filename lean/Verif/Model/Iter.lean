import Verif.Model.Tree

/-!
# tree.rs: iterators

Each iterator is its Rust struct with pure `next`/`nextBack`; the tree is not changed by the iterator itself.
-/

namespace Svgdom

/-- tree.rs:461-464 `Children`. -/
structure Children where
  next : Option NodeId
  nextBack : Option NodeId
deriving DecidableEq

namespace St

/-- tree.rs:192-197 `children`. -/
def children (s : St) (i : NodeId) : Children := ⟨s.firstChild i, s.lastChild i⟩

/-- tree.rs:468-473 `Children::finished`. -/
def childrenFinished (s : St) (it : Children) : Bool :=
  match it.nextBack with
  | some nb => decide (s.nextSibling nb = it.next)
  | none => true

/-- tree.rs:482-494 `Children::next`. -/
def childrenNext (s : St) (it : Children) : Option NodeId × Children :=
  if s.childrenFinished it then (none, it)
  else match it.next with
    | some n => (some n, { it with next := s.nextSibling n })
    | none => (none, it)

/-- tree.rs:501-513 `Children::next_back`. -/
def childrenNextBack (s : St) (it : Children) : Option NodeId × Children :=
  if s.childrenFinished it then (none, it)
  else match it.nextBack with
    | some n => (some n, { it with nextBack := s.prevSibling n })
    | none => (none, it)

/-- `for c in node.children()` as a list, for loops that do not change the tree.
(tree.rs:476-495; loops in document.rs:196, parser/text.rs:252.) -/
def collectChildren (s : St) : Nat → Children → Except Err (List NodeId)
  | 0, _ => .error .diverge
  | k + 1, it =>
    match s.childrenNext it with
    | (none, _) => .ok []
    | (some c, it') => do
      let rest ← s.collectChildren k it'
      pure (c :: rest)

/-- All children in order. (tree.rs:192-197, 476-495.) -/
def childList (s : St) (i : NodeId) : Except Err (List NodeId) := s.collectChildren s.fuel (s.children i)

end St

/-- tree.rs:539-549 `NodeEdge` (`Start`, `End`). -/
inductive Edge where
  | start (n : NodeId)
  | stop (n : NodeId)
deriving DecidableEq

namespace St

/-- tree.rs:563-588 `NodeEdge::next_item`. -/
def nextItem (s : St) (root : NodeId) : Edge → Option Edge
  | .start n =>
    match s.firstChild n with
    | some c => some (.start c)
    | none => some (.stop n)
  | .stop n =>
    if n = root then none
    else match s.nextSibling n with
      | some m => some (.start m)
      | none => match s.parent n with
        | some p => some (.stop p)
        | none => none

/-- tree.rs:590-615 `NodeEdge::previous_item`. -/
def prevItem (s : St) (root : NodeId) : Edge → Option Edge
  | .stop n =>
    match s.lastChild n with
    | some c => some (.stop c)
    | none => some (.start n)
  | .start n =>
    if n = root then none
    else match s.prevSibling n with
      | some m => some (.stop m)
      | none => match s.parent n with
        | some p => some (.start p)
        | none => none

end St

/-- tree.rs:620-624 `Traverse`. -/
structure Traverse where
  root : NodeId
  next : Option Edge
  nextBack : Option Edge
deriving DecidableEq

namespace St

/-- tree.rs:216-222 `traverse`. -/
def traverse (_s : St) (i : NodeId) : Traverse := ⟨i, some (.start i), some (.stop i)⟩

/-- tree.rs:628-633 `Traverse::finished`. -/
def traverseFinished (s : St) (it : Traverse) : Bool :=
  match it.nextBack with
  | some nb => decide (s.nextItem it.root nb = it.next)
  | none => true

/-- tree.rs:642-654 `Traverse::next`. -/
def traverseNext (s : St) (it : Traverse) : Option Edge × Traverse :=
  if s.traverseFinished it then (none, it)
  else match it.next with
    | some e => (some e, { it with next := s.nextItem it.root e })
    | none => (none, it)

/-- tree.rs:661-673 `Traverse::next_back`. -/
def traverseNextBack (s : St) (it : Traverse) : Option Edge × Traverse :=
  if s.traverseFinished it then (none, it)
  else match it.nextBack with
    | some e => (some e, { it with nextBack := s.prevItem it.root e })
    | none => (none, it)

/-- `for edge in node.traverse()` as a list, for loops that do not change the tree. (writer.rs:136.) -/
def collectEdges (s : St) : Nat → Traverse → Except Err (List Edge)
  | 0, _ => .error .diverge
  | k + 1, it =>
    match s.traverseNext it with
    | (none, _) => .ok []
    | (some e, it') => do
      let rest ← s.collectEdges k it'
      pure (e :: rest)

/-- All edges of the subtree in order. (tree.rs:216-222.) -/
def edgeList (s : St) (i : NodeId) : Except Err (List Edge) := s.collectEdges s.fuel (s.traverse i)

/-- tree.rs:525-533 `Descendants::next`: skips `End` edges (`loop`). -/
def descendantsNext (s : St) : Nat → Traverse → Except Err (Option NodeId × Traverse)
  | 0, _ => .error .diverge
  | k + 1, it =>
    match s.traverseNext it with
    | (some (.start n), it') => .ok (some n, it')
    | (some (.stop _), it') => s.descendantsNext k it'
    | (none, it') => .ok (none, it')

/-- `for n in node.descendants()` as a list, for loops that do not change the tree.
(tree.rs:211-213; loops in parser/mod.rs:666, parser/text.rs:95, writer.rs:192.) -/
def collectDescendants (s : St) (bound : Nat) : Nat → Traverse → Except Err (List NodeId)
  | 0, _ => .error .diverge
  | k + 1, it => do
    match ← s.descendantsNext bound it with
    | (none, _) => .ok []
    | (some n, it') => do
      let rest ← s.collectDescendants bound k it'
      pure (n :: rest)

/-- tree.rs:211-213 `descendants`, all of them in order. -/
def descendantList (s : St) (i : NodeId) : Except Err (List NodeId) :=
  s.collectDescendants s.fuel s.fuel (s.traverse i)

/-- The iterators of tree.rs:427-458 (`Ancestors`, `PrecedingSiblings`, `FollowingSiblings`): yields the stored node and
moves on with `f`. -/
def collectBy (f : NodeId → Option NodeId) : Nat → Option NodeId → Except Err (List NodeId)
  | _, none => .ok []
  | 0, some _ => .error .diverge
  | k + 1, some n => do
    let rest ← collectBy f k (f n)
    pure (n :: rest)

/-- tree.rs:169-171, 449-450 `ancestors`. -/
def ancestorList (s : St) (i : NodeId) : Except Err (List NodeId) := collectBy s.parent s.fuel (some i)
/-- tree.rs:176-178, 453-454 `preceding_siblings`. -/
def precedingList (s : St) (i : NodeId) : Except Err (List NodeId) := collectBy s.prevSibling s.fuel (some i)
/-- tree.rs:183-185, 457-458 `following_siblings`. -/
def followingList (s : St) (i : NodeId) : Except Err (List NodeId) := collectBy s.nextSibling s.fuel (some i)

end St

end Svgdom
