import Verif.Spec.Trees
import Verif.Spec.Parse

/-!
# Depth of trees
-/

set_option autoImplicit false

namespace Svgdom

/-- Number of levels. -/
def Trees.height : Trees → Nat
  | nil => 0
  | cons _ kids rest => max (kids.height + 1) rest.height

/-- Number of levels on which a search from above, not entering the nodes with `g` but removing them, is busy: a node with `g` counts
with its whole subtree, another node only if it has children. -/
def Trees.drainHeight (g : NodeId → Bool) : Trees → Nat
  | nil => 0
  | cons i kids rest =>
    max (if g i then kids.height + 1 else if kids.height = 0 then 0 else kids.drainHeight g + 1) (rest.drainHeight g)

/-- Number of levels of an XML tree, not counting what is inside elements that are not SVG. -/
def Xml.svgHeight : Xml → Nat
  | nil => 0
  | element ns name _ kids rest =>
    max (if ns = some st!"http://www.w3.org/2000/svg" ∧ (elementNamed name).isSome then kids.svgHeight + 1 else 1) rest.svgHeight
  | text _ rest => max 1 rest.svgHeight
  | comment _ rest => max 1 rest.svgHeight
  | pi rest => max 1 rest.svgHeight

end Svgdom
