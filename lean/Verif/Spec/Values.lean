import Verif.Model.Parser

/-!
# Types of attribute values
-/

namespace Svgdom

/-- The type of a value. -/
inductive Kind where
  | none | inherit | currentColor | aspectRatio | color | funcLink | paint | length | lengthList | angle | link | number | numberList
  | path | points | transform | viewBox | string
deriving DecidableEq

def AttributeValue.kind : AttributeValue → Kind
  | .none => .none
  | .inherit => .inherit
  | .currentColor => .currentColor
  | .aspectRatio _ => .aspectRatio
  | .color _ => .color
  | .funcLink _ => .funcLink
  | .paint _ _ => .paint
  | .length _ => .length
  | .lengthList _ => .lengthList
  | .angle _ => .angle
  | .link _ => .link
  | .number _ => .number
  | .numberList _ => .numberList
  | .path _ => .path
  | .points _ => .points
  | .transform _ => .transform
  | .viewBox _ => .viewBox
  | .string _ => .string

/-- Attributes for which the keyword `inherit` is plain text. -/
def noInherit : List AttributeId := [.AlignmentBaseline, .Clip, .Cursor, .Font]

/-- Coordinates, which are lists on text elements. -/
def coordAttrs : List AttributeId := [.X, .Y, .Dx, .Dy]

/-- Attributes that are a length whatever the element. -/
def lengthAttrs : List AttributeId :=
  [.X1, .Y1, .X2, .Y2, .R, .Rx, .Ry, .Cx, .Cy, .Fx, .Fy, .RefX, .RefY, .Width, .Height, .MarkerWidth, .MarkerHeight, .StartOffset, .Offset]

/-- References `url(#id)` other than paint. -/
def funcAttrs : List AttributeId := [.ClipPath, .Filter, .Marker, .MarkerEnd, .MarkerMid, .MarkerStart, .Mask]

/-- Elements with lists of coordinates. -/
def listCoords (e : ElementId) : Bool := decide (e ∈ ([.AltGlyph, .Text, .Tref, .Tspan] : List ElementId))

/-- Elements on which `fill` is not a paint. -/
def isAnimation (e : ElementId) : Bool := decide (e ∈ ([.Set, .Animate, .AnimateColor, .AnimateMotion, .AnimateTransform] : List ElementId))

/-- The attributes on which a parsed value of the type can be found. -/
def Kind.OkFor (e : ElementId) (a : AttributeId) : Kind → Prop
  | .length => (a ∈ coordAttrs ∧ listCoords e = false) ∨ a ∈ lengthAttrs ∨
      a ∈ ([.StrokeDashoffset, .StrokeWidth, .FontSize, .LetterSpacing, .WordSpacing, .BaselineShift] : List AttributeId)
  | .lengthList => (a ∈ coordAttrs ∧ listCoords e = true) ∨ a = .StrokeDasharray
  | .number => a ∈ ([.Opacity, .FillOpacity, .FloodOpacity, .StrokeOpacity, .StopOpacity, .K1, .K2, .K3, .K4, .StrokeMiterlimit,
      .FontSizeAdjust] : List AttributeId)
  | .numberList => a ∈ ([.StdDeviation, .BaseFrequency, .Rotate] : List AttributeId)
  | .angle => a ∈ ([.Orient, .GlyphOrientationHorizontal, .GlyphOrientationVertical] : List AttributeId)
  | .color => a ∈ ([.Fill, .Stroke, .Color, .LightingColor, .FloodColor, .StopColor] : List AttributeId)
  | .currentColor => a ∈ ([.Fill, .Stroke, .LightingColor, .FloodColor, .StopColor] : List AttributeId)
  | .none => a ∈ ([.Fill, .Stroke, .StrokeDasharray, .FontSizeAdjust, .Display, .PointerEvents, .TextDecoration] : List AttributeId) ∨ a ∈ funcAttrs
  | .inherit => a.isPresentation = true ∧ a ∉ noInherit
  | .link => a = .Href
  | .paint => a = .Fill ∨ a = .Stroke
  | .funcLink => a ∈ funcAttrs
  | .path => a = .D
  | .points => a = .Points
  | .transform => a ∈ ([.Transform, .GradientTransform, .PatternTransform] : List AttributeId)
  | .viewBox => a = .ViewBox
  | .aspectRatio => a = .PreserveAspectRatio
  | .string => a ∉ coordAttrs ∧ a ∉ lengthAttrs ∧ (a = .Fill → isAnimation e = true) ∧
      a ∉ ([.StrokeDashoffset, .StrokeWidth, .StrokeMiterlimit, .Opacity, .FillOpacity, .FloodOpacity, .StrokeOpacity, .StopOpacity, .K1, .K2, .K3,
        .K4, .StrokeDasharray, .Color, .LightingColor, .FloodColor, .StopColor, .StdDeviation, .BaseFrequency, .Rotate, .Points, .D,
        .Transform, .GradientTransform, .PatternTransform, .FontSizeAdjust, .GlyphOrientationHorizontal, .ViewBox, .PreserveAspectRatio] : List AttributeId)

end Svgdom
