import Verif.Spec.Forest
import Verif.Model.History
import Mathlib.Logic.Relation

/-!
# Specification: ancestors and safe histories
-/

namespace Svgdom

/-- One step up the tree. -/
def St.Up (s : St) (i p : NodeId) : Prop := s.parent i = some p

/-- `a` is a proper ancestor of `i`. -/
def St.Ancestor (s : St) (a i : NodeId) : Prop := Relation.TransGen s.Up i a

/-- `i` is `a` or a descendant of `a`. -/
def St.InSubtree (s : St) (a i : NodeId) : Prop := Relation.ReflTransGen s.Up i a

/-- No live node is its own ancestor. -/
def St.Acyclic (s : St) : Prop := ∀ i, s.live i = true → ¬ s.Ancestor i i

/-- The call does not move a node below itself: for `append`/`prepend` the target is not in the subtree of the moved node, for
`insert_*` the moved node is not an ancestor of the reference node. -/
def Op.Safe (s : St) : Op → Prop
  | .append p c => ¬ s.InSubtree c p
  | .prepend p c => ¬ s.InSubtree c p
  | .insertAfter x y => ¬ s.Ancestor y x
  | .insertBefore x y => ¬ s.Ancestor y x
  | _ => True

/-- States reachable by histories that never move a node below itself. -/
inductive SafeReachable : St → Prop where
  | init (debug : Bool) : SafeReachable (St.init debug)
  | call {s s' : St} (op : Op) : SafeReachable s → (∀ i ∈ op.handles, s.live i = true) → op.Safe s → op.run s = .ok s' →
      SafeReachable s'
  | free {s : St} (i : NodeId) : SafeReachable s → s.live i = true → ¬ s.strongRef i → SafeReachable (s.free i)
  | edit {s t : St} : SafeReachable s → s.Edit t → SafeReachable t

theorem SafeReachable.reachable {s : St} (h : SafeReachable s) : Reachable s := by
  induction h with
  | init d => exact .init d
  | call op _ hl _ e ih => exact .call op ih hl e
  | free i _ hi hr ih => exact .free i ih hi hr
  | edit _ he ih => exact .edit ih he

/-- `i` is in the tree of the document. -/
def St.InDoc (s : St) (i : NodeId) : Prop := s.InSubtree s.rootId i

/-- Moves that keep caches of the document tree right: the document root is not moved, and a node that comes into the document
tree has no children or was in the document tree before. -/
def Op.RootSafe (s : St) : Op → Prop
  | .append p c => c ≠ s.rootId ∧ (s.InDoc p → s.firstChild c = none ∨ s.InDoc c)
  | .prepend p c => c ≠ s.rootId ∧ (s.InDoc p → s.firstChild c = none ∨ s.InDoc c)
  | .insertAfter x y => y ≠ s.rootId ∧ s.parent x ≠ some y ∧ (s.InDoc x → s.firstChild y = none ∨ s.InDoc y)
  | .insertBefore x y => y ≠ s.rootId ∧ s.parent x ≠ some y ∧ (s.InDoc x → s.firstChild y = none ∨ s.InDoc y)
  | _ => True

/-- States reachable by histories of such moves (and any other calls). -/
inductive RootSafeReachable : St → Prop where
  | init (debug : Bool) : RootSafeReachable (St.init debug)
  | call {s s' : St} (op : Op) : RootSafeReachable s → (∀ i ∈ op.handles, s.live i = true) → op.RootSafe s →
      op.run s = .ok s' → RootSafeReachable s'
  | free {s : St} (i : NodeId) : RootSafeReachable s → s.live i = true → ¬ s.strongRef i → RootSafeReachable (s.free i)
  | edit {s t : St} : RootSafeReachable s → s.Edit t → RootSafeReachable t

theorem RootSafeReachable.reachable {s : St} (h : RootSafeReachable s) : Reachable s := by
  induction h with
  | init d => exact .init d
  | call op _ hl _ e ih => exact .call op ih hl e
  | free i _ hi hr ih => exact .free i ih hi hr
  | edit _ he ih => exact .edit ih he

end Svgdom
