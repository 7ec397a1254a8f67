import Verif.Model.Xml
import Verif.Model.Tables

/-!
# parser/mod.rs: attribute values
-/

namespace Svgdom

/-- parser/mod.rs:272-281 `f64_bound`. -/
def f64Bound (min val max : F64) : F64 :=
  if max.lt val then max
  else if val.lt min then min
  else val

/-- parser/mod.rs:631-640 `parse_number`. -/
def parseNumber (L : Lib) (value : Str) : Option F64 :=
  match L.number value with
  | some (n, atEnd) => if atEnd then some n else none
  | none => none

/-- parser/mod.rs:520-536: path tokens up to the first error. -/
def pathTokens : List (Option Blob) → List Blob
  | [] => []
  | some t :: ts => t :: pathTokens ts
  | none :: _ => []

/-- Outcome of `_parse_svg_attribute_value`. (parser/mod.rs:283-632.) -/
inductive Parsed where
  /-- `Err(_)` -/
  | invalid
  /-- `Ok(None)` -/
  | nothing
  /-- `Ok(None)`, and a reference was put into `links` -/
  | link (iri : Str) (fallback : Option PaintFallback)
  /-- `Ok(Some(_))` -/
  | value (v : AttributeValue)
deriving DecidableEq

/-- `expr?` followed by wrapping the value. (parser/mod.rs:283-632.) -/
def Parsed.ofOption {α : Type} (f : α → AttributeValue) : Option α → Parsed
  | some x => .value (f x)
  | none => .invalid

/-- parser/mod.rs:417-428, 434-445: the `Paint` match. -/
def paintValue (L : Lib) (value : Str) : Parsed :=
  match L.paint value with
  | some .none => .value .none
  | some .inherit => .value .inherit
  | some .currentColor => .value .currentColor
  | some (.color c) => .value (.color c)
  | some (.funcIRI iri fb) => .link iri fb
  | none => .invalid

/-- parser/mod.rs:283-629 `_parse_svg_attribute_value`: the arms in order. The only use of `node` and `links` is to collect a
reference, which is the outcome `.link` here. -/
def parseValue (L : Lib) (aid : AttributeId) (eid : ElementId) (raw : Str) : Parsed :=
  let value := if aid ≠ .Unicode then trimStr raw else raw
  let string : Parsed := .value (.string value)
  if aid = .Href then
    match L.iri value with
    | some link => .link link none
    | none => string
  else if aid ∈ ([.X, .Y, .Dx, .Dy] : List AttributeId) then
    if eid ∈ ([.AltGlyph, .Text, .Tref, .Tspan] : List ElementId) then .ofOption .lengthList (L.lengthList value)
    else .ofOption .length (L.length value)
  else if aid ∈ ([.X1, .Y1, .X2, .Y2, .R, .Rx, .Ry, .Cx, .Cy, .Fx, .Fy, .RefX, .RefY, .Width, .Height, .MarkerWidth,
      .MarkerHeight, .StartOffset] : List AttributeId) then .ofOption .length (L.length value)
  else if aid = .Offset then
    match L.length value with
    | some l => if l.unit = .none ∨ l.unit = .percent then .value (.length l) else .invalid
    | none => .invalid
  else if aid ∈ ([.StrokeDashoffset, .StrokeWidth] : List AttributeId) then
    if value = st!"inherit" then .value .inherit else .ofOption .length (L.length value)
  else if aid = .StrokeMiterlimit then
    if value = st!"inherit" then .value .inherit else .ofOption .number (parseNumber L value)
  else if aid ∈ ([.Opacity, .FillOpacity, .FloodOpacity, .StrokeOpacity, .StopOpacity] : List AttributeId) then
    if value = st!"inherit" then .value .inherit
    else .ofOption (fun n => .number (f64Bound (.fin 0) n (.fin 1))) (parseNumber L value)
  else if aid ∈ ([.K1, .K2, .K3, .K4] : List AttributeId) then
    .ofOption (fun n => .number (f64Bound (.fin 0) n (.fin 1))) (parseNumber L value)
  else if aid = .StrokeDasharray then
    if value = st!"none" then .value .none
    else if value = st!"inherit" then .value .inherit
    else .ofOption .lengthList (L.lengthList value)
  else if aid = .Fill then
    if eid ∈ ([.Set, .Animate, .AnimateColor, .AnimateMotion, .AnimateTransform] : List ElementId) then string
    else paintValue L value
  else if aid = .Stroke then paintValue L value
  else if aid ∈ ([.ClipPath, .Filter, .Marker, .MarkerEnd, .MarkerMid, .MarkerStart, .Mask] : List AttributeId) then
    if value = st!"none" then .value .none
    else if value = st!"inherit" then .value .inherit
    else match L.funcIri value with
      | some link => .link link none
      | none => .invalid
  else if aid = .Color then
    if value = st!"inherit" then .value .inherit else .ofOption .color (L.color value)
  else if aid ∈ ([.LightingColor, .FloodColor, .StopColor] : List AttributeId) then
    if value = st!"inherit" then .value .inherit
    else if value = st!"currentColor" then .value .currentColor
    else .ofOption .color (L.color value)
  else if aid ∈ ([.StdDeviation, .BaseFrequency, .Rotate] : List AttributeId) then
    .ofOption .numberList (L.numberList value)
  else if aid = .Points then .ofOption .points (L.points value)
  else if aid = .D then .value (.path (pathTokens (L.path value)))
  else if aid ∈ ([.Transform, .GradientTransform, .PatternTransform] : List AttributeId) then
    match L.transform value with
    | some (ts, isDefault) => if !isDefault then .value (.transform ts) else .nothing
    | none => .invalid
  else if aid = .FontSize then
    match L.length value with
    | some l => .value (.length l)
    | none => if value = st!"inherit" then .value .inherit else string
  else if aid = .FontSizeAdjust then
    if value = st!"none" then .value .none
    else if value = st!"inherit" then .value .inherit
    else .ofOption .number (parseNumber L value)
  else if aid ∈ ([.Display, .PointerEvents, .TextDecoration] : List AttributeId) then
    if value = st!"none" then .value .none
    else if value = st!"inherit" then .value .inherit
    else string
  else if aid ∈ ([.ClipRule, .ColorInterpolation, .ColorInterpolationFilters, .ColorProfile, .ColorRendering, .Direction,
      .DominantBaseline, .EnableBackground, .FillRule, .FontFamily, .FontStretch, .FontStyle, .FontVariant, .FontWeight,
      .ImageRendering, .Kerning, .Overflow, .ShapeRendering, .StrokeLinecap, .StrokeLinejoin, .TextAnchor, .TextRendering,
      .UnicodeBidi, .Visibility, .WritingMode] : List AttributeId) then
    if value = st!"inherit" then .value .inherit else string
  else if aid ∈ ([.LetterSpacing, .WordSpacing] : List AttributeId) then
    if value = st!"inherit" then .value .inherit
    else if value = st!"normal" then string
    else .ofOption .length (L.length value)
  else if aid = .BaselineShift then
    if value = st!"inherit" then .value .inherit
    else if value = st!"baseline" ∨ value = st!"sub" ∨ value = st!"super" then string
    else .ofOption .length (L.length value)
  else if aid = .Orient then
    if value = st!"auto" then string else .ofOption .angle (L.angle value)
  else if aid = .GlyphOrientationHorizontal then
    if value = st!"inherit" then .value .inherit else .ofOption .angle (L.angle value)
  else if aid = .GlyphOrientationVertical then
    if value = st!"inherit" then .value .inherit
    else if value = st!"auto" then string
    else .ofOption .angle (L.angle value)
  else if aid = .ViewBox then .ofOption .viewBox (L.viewBox value)
  else if aid = .PreserveAspectRatio then .ofOption .aspectRatio (L.aspectRatio value)
  else string

/-- parser/mod.rs:214-216: values that are not stored. -/
def AttributeValue.isEmptyList : AttributeValue → Bool
  | .numberList l => l.isEmpty
  | .lengthList l => l.isEmpty
  | .path l => l.isEmpty
  | _ => false

end Svgdom
