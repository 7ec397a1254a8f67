import Verif.Spec.Picture

/-!
# Specification: calls that are overwritten

What a node carries has parts: text, id, tag name, and one part for each attribute name. A call that sets a part makes earlier calls
for the same part superfluous.
-/

set_option autoImplicit false

namespace Svgdom

/-- A part of what a node carries. -/
inductive Part where
  | text
  | id
  | tag
  | attr (name : AName)
deriving DecidableEq

/-- The part of a node that a call changes at most. -/
def Call.writes : Call → Option (NodeId × Part)
  | .setText i _ => some (i, .text)
  | .editText i _ => some (i, .text)
  | .setId i _ => some (i, .id)
  | .setTagName i _ => some (i, .tag)
  | .setAttribute i a => some (i, .attr a.name)
  | .setAttributeChecked i a => some (i, .attr a.name)
  | .setAttributeIfNone i a => some (i, .attr a.name)
  | .removeAttribute i n => some (i, .attr n)
  | _ => none

/-- The part of a node that a call determines, whatever it was before. -/
def Call.overwrites : Call → Option (NodeId × Part)
  | .setText i _ => some (i, .text)
  | .editText i _ => some (i, .text)
  | .setId i _ => some (i, .id)
  | .setTagName i _ => some (i, .tag)
  | .setAttribute i a => some (i, .attr a.name)
  | .removeAttribute i n => some (i, .attr n)
  | _ => none

/-- The call does not look at what nodes carry: it makes or moves a node, or sets a part to something that is no reference. -/
def Call.blind : Call → Bool
  | .createElement _ => true
  | .createNode _ _ => true
  | .append _ _ => true
  | .prepend _ _ => true
  | .insertAfter _ _ => true
  | .insertBefore _ _ => true
  | .detach _ => true
  | .setText _ _ => true
  | .editText _ _ => true
  | .setId _ _ => true
  | .setTagName _ _ => true
  | .setAttribute _ a => decide (a.value.names = none)
  | .removeAttribute _ _ => true
  | _ => false

/-- `d` without the part `k`. -/
def Look.without (d : Look) : Part → Look
  | .text => { d with text := [] }
  | .id => { d with id := [] }
  | .tag => { d with tag := .name [] }
  | .attr n => { d with attrs := d.attrs.filter fun b => decide (b.name ≠ n) }

end Svgdom
