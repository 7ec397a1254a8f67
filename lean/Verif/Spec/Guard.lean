import Verif.Model.Guard

/-!
# Which cells a call needs

Independent of the code of the moves: read off the pointers before the call.
-/

set_option autoImplicit false

namespace Svgdom

/-- Some node of the list is borrowed by the caller. -/
def Guarded (g : Guards) (l : List NodeId) : Prop := ∃ n ∈ l, g n ≠ .free

instance (g : Guards) (l : List NodeId) : Decidable (Guarded g l) := List.decidableBEx _ l

/-- The neighbours whose pointers change when `c` leaves its place: the next sibling, or the parent if there is none, and the
previous sibling, or the parent if there is none. -/
def St.around (s : St) (c : NodeId) : List NodeId :=
  ((s.nextSibling c).or (s.parent c)).toList ++ ((s.prevSibling c).or (s.parent c)).toList

/-- The adjoining nodes in the sense of the documentation: parent, siblings on both sides, first and last child. -/
def St.adjoining (s : St) (c : NodeId) : List NodeId :=
  (s.parent c).toList ++ (s.prevSibling c).toList ++ (s.nextSibling c).toList ++ (s.firstChild c).toList ++
    (s.lastChild c).toList

/-- `r` is what the call returns without guards (`plain`), unless a node of `need` is borrowed; then it is a `RefCell` panic. The
assertion that the two nodes differ comes first. -/
def GuardedOutcome (g : Guards) (same : Prop) (need : List NodeId) (plain r : Except Err St) : Prop :=
  (same → r = .error (.panic .assertFailed)) ∧
  (¬ same → Guarded g need → r = .error (.panic .borrowed)) ∧
  (¬ same → ¬ Guarded g need → r = plain)

/-- Nothing that the caller has borrowed was changed. -/
def Untouched (g : Guards) (s t : St) : Prop := ∀ j, g j ≠ .free → t.links j = s.links j ∧ t.data j = s.data j

/-- A call with guards on `s`: it panics because of a guard, or the result `rG` is the result `r` without guards; and if it
returns, nothing borrowed was changed. `π` gives the state in the result. -/
def Respects {α : Type} (g : Guards) (π : α → St) (s : St) (rG r : Except Err α) : Prop :=
  ((rG = .error (.panic .borrowed) ∧ ∃ i, g i ≠ .free) ∨ rG = r) ∧ ∀ a, rG = .ok a → Untouched g s (π a)

/-- The node the present value of the attribute links to. -/
def St.oldTarget (s : St) (i : NodeId) (x : AName) : Option NodeId := (attrsGetValue (s.attributes i) x).bind (·.linkNode)

end Svgdom
