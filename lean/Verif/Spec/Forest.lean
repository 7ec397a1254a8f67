import Verif.Model.Tree

/-!
# Specification: ordered forests

The mathematical picture of the node tree that a user of the API has in mind, written without any pointer:
every node has a list of children, a list of siblings (including itself) and possibly a parent.
Nodes without a parent may still have siblings (`insert_after`/`insert_before` on a parentless node).
-/

namespace Svgdom

/-- An ordered forest. -/
structure Forest where
  /-- children, in order -/
  kids : NodeId → List NodeId
  /-- the sibling sequence a node belongs to (contains the node itself) -/
  sibs : NodeId → List NodeId
  par : NodeId → Option NodeId

/-- The element following `x` in a list. -/
def after : List NodeId → NodeId → Option NodeId
  | [], _ => none
  | a :: t, x => if a = x then t.head? else after t x

/-- The element preceding `x` in a list. -/
def before : List NodeId → NodeId → Option NodeId
  | a :: b :: t, x => if a = x then none else if b = x then some a else before (b :: t) x
  | _, _ => none

/-- `y` inserted directly after `x`. -/
def insAfter : List NodeId → NodeId → NodeId → List NodeId
  | [], _, _ => []
  | a :: t, x, y => if a = x then a :: y :: t else a :: insAfter t x y

/-- `y` inserted directly before `x`. -/
def insBefore : List NodeId → NodeId → NodeId → List NodeId
  | [], _, _ => []
  | a :: t, x, y => if a = x then y :: a :: t else a :: insBefore t x y

namespace Forest

/-- What it means to be an ordered forest on the live nodes: every node occurs once in its sibling sequence, siblings agree on
sequence and parent, the sibling sequence of a node with a parent is the parent's child sequence. -/
structure WF (F : Forest) (live : NodeId → Bool) : Prop where
  self_mem : ∀ i, live i = true → i ∈ F.sibs i
  nodup : ∀ i, live i = true → (F.sibs i).Nodup
  sib : ∀ i, live i = true → ∀ j ∈ F.sibs i, live j = true ∧ F.sibs j = F.sibs i ∧ F.par j = F.par i
  par : ∀ i, live i = true → ∀ p, F.par i = some p → live p = true ∧ F.kids p = F.sibs i
  kids : ∀ p, live p = true → ∀ c ∈ F.kids p, live c = true ∧ F.par c = some p

/-- Take node `c` out of its sibling sequence; its children stay with it. -/
def detach (F : Forest) (c : NodeId) : Forest where
  kids := fun p => (F.kids p).erase c
  sibs := fun j => if j = c then [c] else (F.sibs j).erase c
  par := fun j => if j = c then none else F.par j

/-- Node `c`, which is alone, becomes a member of sibling sequence `L` (which contains it) below `p`. -/
def attach (F : Forest) (p : Option NodeId) (L : List NodeId) (c : NodeId) : Forest where
  kids := fun q => if p = some q then L else F.kids q
  sibs := fun j => if j ∈ L then L else F.sibs j
  par := fun j => if j = c then p else F.par j

/-- `c` becomes the last child of `p`. -/
def append (F : Forest) (p c : NodeId) : Forest :=
  (F.detach c).attach (some p) ((F.detach c).kids p ++ [c]) c

/-- `c` becomes the first child of `p`. -/
def prepend (F : Forest) (p c : NodeId) : Forest :=
  (F.detach c).attach (some p) (c :: (F.detach c).kids p) c

/-- `y` moves directly after `x`. -/
def insertAfter (F : Forest) (x y : NodeId) : Forest :=
  (F.detach y).attach ((F.detach y).par x) (insAfter ((F.detach y).sibs x) x y) y

/-- `y` moves directly before `x`. -/
def insertBefore (F : Forest) (x y : NodeId) : Forest :=
  (F.detach y).attach ((F.detach y).par x) (insBefore ((F.detach y).sibs x) x y) y

/-- A new node `n` without relatives. -/
def add (F : Forest) (n : NodeId) : Forest where
  kids := fun p => if p = n then [] else F.kids p
  sibs := fun j => if j = n then [n] else F.sibs j
  par := fun j => if j = n then none else F.par j

/-- Node `i` is dropped: its children lose their parent, its siblings lose a sibling. -/
def drop (F : Forest) (i : NodeId) : Forest where
  kids := F.kids
  sibs := fun j => (F.sibs j).erase i
  par := fun j => if F.par j = some i then none else F.par j

end Forest

/-- The getters of all live nodes of `s` show the forest `F`. -/
structure Shows (s : St) (F : Forest) : Prop where
  parent : ∀ i, s.live i = true → s.parent i = F.par i
  next : ∀ i, s.live i = true → s.nextSibling i = after (F.sibs i) i
  prev : ∀ i, s.live i = true → s.prevSibling i = before (F.sibs i) i
  first : ∀ i, s.live i = true → s.firstChild i = (F.kids i).head?
  last : ∀ i, s.live i = true → s.lastChild i = (F.kids i).getLast?

/-- `F` is an ordered forest on the live nodes of `s`, and it is what the getters show. -/
structure Describes (s : St) (F : Forest) : Prop where
  wf : F.WF s.live
  shows : Shows s F

end Svgdom
