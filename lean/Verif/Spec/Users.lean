import Verif.Spec.Whole

/-!
# Specification: what a picture leaves out

A picture (`Spec/Picture.lean`) does not show what `root()` returns, nor the order of `linked_nodes()`. Both depend on the calls made
so far, not only on the document. `Extras` has them; with them everything that can be observed is a function of the calls.
-/

set_option autoImplicit false

namespace Svgdom

/-- For each node: the node that `root()` returns if it is not the node itself; and the nodes that refer to it, in the order of
`linked_nodes()`. -/
structure Extras where
  top : NodeId → Option NodeId
  users : NodeId → List NodeId

/-- Of each node `i` the last `c i` occurrences. -/
def keepLast (c : NodeId → Nat) : List NodeId → List NodeId
  | [] => []
  | i :: l => if l.count i < c i then i :: keepLast c l else keepLast c l

namespace Extras

/-- A new document. -/
def init : Extras where
  top := fun _ => none
  users := fun _ => []

/-- `c` gets a new place; the topmost node is the one its new relative remembers. -/
def join (X : Extras) (c : NodeId) (r : Option NodeId) : Extras := { X with top := fun j => if j = c then r else X.top j }

/-- References were removed, which leads to the picture `Q`. A user that still refers `k` times to the node keeps its last `k` places in
the list. -/
def unlink (X : Extras) (Q : Picture) : Extras :=
  { X with users := fun j => keepLast (fun i => refCount (Q.look i).attrs j) (X.users j) }

/-- Node `i` gets the attribute `a`: the old one goes first, and then the new user is the last one. -/
def put (X : Extras) (P : Picture) (i : NodeId) (a : Attribute) : Extras :=
  let Y := X.unlink (P.edit i fun d => { d with attrs := d.attrs.filter fun b => decide (b.name ≠ a.name) })
  { Y with users := fun j => Y.users j ++ if a.value.names = some j then [i] else [] }

/-- Nodes were made, which leads from `P` to `Q`. The first of them is not below another node, and the others are below the first. Their
references are in the order of the nodes. -/
def grow (X : Extras) (P Q : Picture) : Extras where
  top := fun j => if P.next ≤ j ∧ j < Q.next then (if j = P.next then none else some P.next) else X.top j
  users := fun j => if P.next ≤ j ∧ j < Q.next then [] else
    X.users j ++ (List.range' P.next (Q.next - P.next)).flatMap fun n => List.replicate (refCount (Q.look n).attrs j) n

/-- One call that leads from `P` to `Q`. -/
def step (X : Extras) (P Q : Picture) : Call → Extras
  | .createElement _ => X.grow P Q
  | .createNode _ _ => X.grow P Q
  | .copyNode _ => X.grow P Q
  | .copyNodeDeep _ => X.grow P Q
  | .append p c => X.join c (some ((X.top p).getD p))
  | .prepend p c => X.join c (some ((X.top p).getD p))
  | .insertAfter x y => X.join y (X.top x)
  | .insertBefore x y => X.join y (X.top x)
  | .setAttribute i a => X.put P i a
  | .setAttributeChecked i a => if P.refuses i a.value then X else X.put P i a
  | .setAttributeIfNone i a => if (P.look i).attrs.any fun b => decide (b.name = a.name) then X else X.put P i a
  | .removeAttribute _ _ => X.unlink Q
  | .removeNode _ => X.unlink Q
  | .drain _ _ => X.unlink Q
  | .detach _ => X
  | .setText _ _ => X
  | .setId _ _ => X
  | .setTagName _ _ => X
  | .editText _ _ => X
  | .editAttribute _ _ _ => X
  | .release _ => X

/-- A history of calls, as far as it goes without a panic. -/
def run (X : Extras) (P : Picture) : List Call → Extras
  | [] => X
  | c :: cs =>
    match P.step c with
    | .state Q => (X.step P Q c).run Q cs
    | _ => X

/-- `X` is what the state `s` has besides its picture. -/
structure Of (X : Extras) (s : St) : Prop where
  top : ∀ i, s.live i = true → X.top i = (s.links i).root
  users : ∀ i, s.live i = true → X.users i = s.linkedNodes i

end Extras

/-! ## Parsed documents -/

/-- The users when node `i` gets the attribute `a`, its attributes before being `l`: the old target loses the first place of `i`, the
new target gets `i` as its last user. -/
def putUser (U : NodeId → List NodeId) (l : List Attribute) (i : NodeId) (a : Attribute) : NodeId → List NodeId := fun j =>
  (if l.any (fun b => decide (b.name = a.name) && decide (b.value.names = some j)) then (U j).erase i else U j) ++
    if a.value.names = some j then [i] else []

/-- The users of a parsed document: the references are settled in document order. -/
def parsedUsers (L : Lib) (x : Xml) : NodeId → List NodeId :=
  let targets := (0, []) :: (keptNodes L x).nodes.map fun p => (p.1, p.2.id)
  let ids := fun j => ((allNodes L x).lookAt j).id
  (((svgDom L x).links 1).foldl (fun (A, U) l =>
      (settle targets ids A l,
       match verdict targets ids A l with
       | none => U
       | some a => putUser U (A l.node) l.node a))
    ((fun j => ((allNodes L x).lookAt j).attrs), fun _ => [])).2

/-- A parsed document: every node but the root remembers the root. -/
def parsedExtras (L : Lib) (x : Xml) : Extras where
  top := fun j => if j = 0 then none else some 0
  users := parsedUsers L x

/-- What `root()` does: it returns the node itself or the remembered one; if that is gone, it panics. -/
def Picture.rootOf (P : Picture) (X : Extras) (i : NodeId) : Except Err NodeId :=
  match X.top i with
  | none => .ok i
  | some r => if P.live r then .ok r else .error (.panic .unwrap)

end Svgdom
