import Verif.Spec.Acyclic
import Verif.Model.Iter

/-!
# Specification: finite trees and their traversal orders
-/

namespace Svgdom

/-- A finite sequence of finite ordered trees: empty, or a first tree (root `i` with subtrees `kids`) and the rest. -/
inductive Trees where
  | nil
  | cons (i : NodeId) (kids rest : Trees)

/-- `T` is the sequence of subtrees of `F` at the nodes `l`. -/
def Trees.Of (F : Forest) : Trees → List NodeId → Prop
  | nil, l => l = []
  | cons i kids rest, l => ∃ l', l = i :: l' ∧ kids.Of F (F.kids i) ∧ rest.Of F l'

/-- Nodes in pre-order (document order). -/
def Trees.pre : Trees → List NodeId
  | nil => []
  | cons i kids rest => i :: (kids.pre ++ rest.pre)

/-- Start and end tags in document order. -/
def Trees.edges : Trees → List Edge
  | nil => []
  | cons i kids rest => .start i :: (kids.edges ++ .stop i :: rest.edges)

/-- One pull from a double-ended iterator. -/
inductive Pull where
  | front
  | back

/-- Double-ended queue: the answers to a sequence of pulls from a queue holding `l`. -/
def deque {α : Type} : List Pull → List α → List (Option α)
  | [], _ => []
  | .front :: ps, [] => none :: deque ps []
  | .front :: ps, x :: l => some x :: deque ps l
  | .back :: ps, l => l.getLast? :: deque ps l.dropLast

/-- The answers of `children()` to a sequence of `next`/`next_back` calls. -/
def St.childrenPulls (s : St) : List Pull → Children → List (Option NodeId)
  | [], _ => []
  | .front :: ps, it => (s.childrenNext it).1 :: s.childrenPulls ps (s.childrenNext it).2
  | .back :: ps, it => (s.childrenNextBack it).1 :: s.childrenPulls ps (s.childrenNextBack it).2

/-- The answers of `traverse()` to a sequence of `next`/`next_back` calls. -/
def St.traversePulls (s : St) : List Pull → Traverse → List (Option Edge)
  | [], _ => []
  | .front :: ps, it => (s.traverseNext it).1 :: s.traversePulls ps (s.traverseNext it).2
  | .back :: ps, it => (s.traverseNextBack it).1 :: s.traversePulls ps (s.traverseNextBack it).2

end Svgdom
