import Verif.Spec.Memory
import Verif.Spec.Picture

/-!
# Specification: nested drops

When the last reference to a node goes, `Rc::drop` drops its fields, and with them the references it holds. A node that was held by nothing
else is dropped inside of this drop, and so on. Every level needs its own stack frames.
-/

set_option autoImplicit false

namespace Svgdom

/-- The drop of node `i`, to which nothing refers, leads to `n` drops inside of each other. `ref` says which nodes are referred to. -/
inductive Nested (ref : St → NodeId → Prop) : St → NodeId → Nat → Prop where
  | last {s : St} {i : NodeId} : s.live i = true → ¬ ref s i → Nested ref s i 1
  | more {s : St} {i j : NodeId} {n : Nat} : s.live i = true → ¬ ref s i → s.Holds i j → Nested ref (s.free i) j n →
      Nested ref s i (n + 1)

/-- A call that moves only nodes which are stored in the document, and that makes references only to such nodes and only by attributes with
SVG names. -/
def Call.tidy (P : Picture) : Call → Bool
  | .append p c => P.stored p && P.stored c
  | .prepend p c => P.stored p && P.stored c
  | .insertAfter x y => P.stored x && P.stored y
  | .insertBefore x y => P.stored x && P.stored y
  | .setAttribute _ a => a.value.names.all fun n => a.isSvg && P.stored n
  | .setAttributeChecked _ a => a.value.names.all fun n => a.isSvg && P.stored n
  | .setAttributeIfNone _ a => a.value.names.all fun n => a.isSvg && P.stored n
  | _ => true

/-- All calls of a history are of this kind. -/
def Picture.tidyRun (P : Picture) : List Call → Bool
  | [] => true
  | c :: cs => c.tidy P && match P.step c with
    | .state Q => Q.tidyRun cs
    | _ => true

/-- Nodes that are not stored in the document are alone; all references are made by attributes with SVG names and point to stored nodes. -/
structure Picture.Tidy (P : Picture) : Prop where
  kids : ∀ i, P.live i = true → P.stored i = false → P.forest.kids i = []
  sibs : ∀ i, P.live i = true → P.stored i = false → P.forest.sibs i = [i]
  par : ∀ i, P.live i = true → P.stored i = false → P.forest.par i = none
  links : ∀ i, P.live i = true → ∀ a ∈ (P.look i).attrs, ∀ n, a.value.names = some n → a.isSvg = true ∧ P.stored n = true

end Svgdom
