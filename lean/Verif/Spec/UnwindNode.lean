import Verif.Model.UnwindNode
import Verif.Spec.Forest

/-!
# Specification for C84 – C86: calls that change the data of a node
-/

set_option autoImplicit false

namespace Svgdom

/-- The methods of node.rs that store or remove data. -/
inductive DataCall where
  | setText (i : NodeId) (t : Str)
  | setId (i : NodeId) (t : Str)
  | setTagName (i : NodeId) (t : TagName)
  | setAttribute (i : NodeId) (a : Attribute)
  | setAttributeChecked (i : NodeId) (a : Attribute)
  | setAttributeIfNone (i : NodeId) (a : Attribute)
  | removeAttribute (i : NodeId) (x : AName)

/-- The call, with the state that a panic leaves behind. -/
def DataCall.runU (g : Guards) (s : St) : DataCall → Except (Err × St) St
  | .setText i t => s.setTextU g i t
  | .setId i t => s.setIdU g i t
  | .setTagName i t => s.setTagNameU g i t
  | .setAttribute i a => s.setAttributeU g i a
  | .setAttributeChecked i a => (s.setAttributeCheckedU g i a).map (·.1)
  | .setAttributeIfNone i a => s.setAttributeIfNoneU g i a
  | .removeAttribute i x => s.removeAttributeU g i x

/-- The same as a step of a history. -/
def DataCall.op : DataCall → Op
  | .setText i t => .setText i t
  | .setId i t => .setId i t
  | .setTagName i t => .setTagName i t
  | .setAttribute i a => .setAttribute i a
  | .setAttributeChecked i a => .setAttributeChecked i a
  | .setAttributeIfNone i a => .setAttributeIfNone i a
  | .removeAttribute i x => .removeAttribute i x

/-- The tree of `s` is unchanged in `t`; there may be new nodes. -/
def KeepsTree (s t : St) : Prop := ∀ F, Describes s F → ∃ G, Describes t G ∧
  ∀ j, s.live j = true → G.kids j = F.kids j ∧ G.par j = F.par j ∧ G.sibs j = F.sibs j

end Svgdom
