import Verif.Model.Node

/-!
# Category tables and default values (generated by `tools/gen_tables.py`, do not edit)

The `match` arms of element_type.rs, attribute_type.rs and `default_value` of attribute_value.rs.
-/

namespace Svgdom

/-- element_type.rs:123-133, the ids listed in `is_referenced`. -/
def ElementId.isReferenced (e : ElementId) : Bool :=
  decide (e ∈ [.AltGlyphDef, .ClipPath, .Cursor, .Filter, .LinearGradient, .Marker, .Mask, .Pattern, .RadialGradient, .Symbol])

/-- element_type.rs:109-122, 123-133 `is_referenced`. -/
def St.isReferenced (s : St) (i : NodeId) : Bool :=
  match s.tagId i with
  | some e => e.isReferenced
  | none => false

/-- element_type.rs:135-141, the ids listed in `is_basic_shape`. -/
def ElementId.isBasicShape (e : ElementId) : Bool :=
  decide (e ∈ [.Rect, .Circle, .Ellipse, .Line, .Polyline, .Polygon])

/-- element_type.rs:109-122, 135-141 `is_basic_shape`. -/
def St.isBasicShape (s : St) (i : NodeId) : Bool :=
  match s.tagId i with
  | some e => e.isBasicShape
  | none => false

/-- element_type.rs:143-150, the ids listed in `is_shape`. -/
def ElementId.isShape (e : ElementId) : Bool :=
  decide (e ∈ [.Circle, .Ellipse, .Line, .Path, .Polygon, .Polyline, .Rect])

/-- element_type.rs:109-122, 143-150 `is_shape`. -/
def St.isShape (s : St) (i : NodeId) : Bool :=
  match s.tagId i with
  | some e => e.isShape
  | none => false

/-- element_type.rs:152-163, the ids listed in `is_container`. -/
def ElementId.isContainer (e : ElementId) : Bool :=
  decide (e ∈ [.A, .Defs, .Glyph, .G, .Marker, .Mask, .MissingGlyph, .Pattern, .Svg, .Switch, .Symbol])

/-- element_type.rs:109-122, 152-163 `is_container`. -/
def St.isContainer (s : St) (i : NodeId) : Bool :=
  match s.tagId i with
  | some e => e.isContainer
  | none => false

/-- element_type.rs:165-170, the ids listed in `is_text_content`. -/
def ElementId.isTextContent (e : ElementId) : Bool :=
  decide (e ∈ [.AltGlyph, .TextPath, .Text, .Tref, .Tspan])

/-- element_type.rs:109-122, 165-170 `is_text_content`. -/
def St.isTextContent (s : St) (i : NodeId) : Bool :=
  match s.tagId i with
  | some e => e.isTextContent
  | none => false

/-- element_type.rs:172-176, the ids listed in `is_text_content_child`. -/
def ElementId.isTextContentChild (e : ElementId) : Bool :=
  decide (e ∈ [.AltGlyph, .TextPath, .Tref, .Tspan])

/-- element_type.rs:109-122, 172-176 `is_text_content_child`. -/
def St.isTextContentChild (s : St) (i : NodeId) : Bool :=
  match s.tagId i with
  | some e => e.isTextContentChild
  | none => false

/-- element_type.rs:178-188, the ids listed in `is_graphic`. -/
def ElementId.isGraphic (e : ElementId) : Bool :=
  decide (e ∈ [.Circle, .Ellipse, .Image, .Line, .Path, .Polygon, .Polyline, .Rect, .Text, .Use])

/-- element_type.rs:109-122, 178-188 `is_graphic`. -/
def St.isGraphic (s : St) (i : NodeId) : Bool :=
  match s.tagId i with
  | some e => e.isGraphic
  | none => false

/-- element_type.rs:190-192, the ids listed in `is_gradient`. -/
def ElementId.isGradient (e : ElementId) : Bool :=
  decide (e ∈ [.LinearGradient, .RadialGradient])

/-- element_type.rs:109-122, 190-192 `is_gradient`. -/
def St.isGradient (s : St) (i : NodeId) : Bool :=
  match s.tagId i with
  | some e => e.isGradient
  | none => false

/-- element_type.rs:194-197, the ids listed in `is_paint_server`. -/
def ElementId.isPaintServer (e : ElementId) : Bool :=
  decide (e ∈ [.LinearGradient, .RadialGradient, .Pattern])

/-- element_type.rs:109-122, 194-197 `is_paint_server`. -/
def St.isPaintServer (s : St) (i : NodeId) : Bool :=
  match s.tagId i with
  | some e => e.isPaintServer
  | none => false

/-- element_type.rs:199-215, the ids listed in `is_filter_primitive`. -/
def ElementId.isFilterPrimitive (e : ElementId) : Bool :=
  decide (e ∈ [.FeBlend, .FeColorMatrix, .FeComponentTransfer, .FeComposite, .FeConvolveMatrix, .FeDiffuseLighting, .FeDisplacementMap, .FeFlood, .FeGaussianBlur, .FeImage, .FeMerge, .FeMorphology, .FeOffset, .FeSpecularLighting, .FeTile, .FeTurbulence])

/-- element_type.rs:109-122, 199-215 `is_filter_primitive`. -/
def St.isFilterPrimitive (s : St) (i : NodeId) : Bool :=
  match s.tagId i with
  | some e => e.isFilterPrimitive
  | none => false

/-- attribute_type.rs:83-148 `is_presentation`. -/
def AttributeId.isPresentation (a : AttributeId) : Bool :=
  decide (a ∈ [.AlignmentBaseline, .BaselineShift, .Clip, .ClipPath, .ClipRule, .Color, .ColorInterpolation, .ColorInterpolationFilters, .ColorProfile, .ColorRendering, .Cursor, .Direction, .Display, .DominantBaseline, .EnableBackground, .Fill, .FillOpacity, .FillRule, .Filter, .FloodColor, .FloodOpacity, .Font, .FontFamily, .FontSize, .FontSizeAdjust, .FontStretch, .FontStyle, .FontVariant, .FontWeight, .GlyphOrientationHorizontal, .GlyphOrientationVertical, .ImageRendering, .Kerning, .LetterSpacing, .LightingColor, .Marker, .MarkerEnd, .MarkerMid, .MarkerStart, .Mask, .Opacity, .Overflow, .PointerEvents, .ShapeRendering, .StopColor, .StopOpacity, .Stroke, .StrokeDasharray, .StrokeDashoffset, .StrokeLinecap, .StrokeLinejoin, .StrokeMiterlimit, .StrokeOpacity, .StrokeWidth, .TextAnchor, .TextDecoration, .TextRendering, .UnicodeBidi, .Visibility, .WordSpacing, .WritingMode])

/-- attribute_type.rs:158-166 `is_animation_event`. -/
def AttributeId.isAnimationEvent (a : AttributeId) : Bool :=
  decide (a ∈ [.Onbegin, .Onend, .Onload, .Onrepeat])

/-- attribute_type.rs:168-182 `is_graphical_event`. -/
def AttributeId.isGraphicalEvent (a : AttributeId) : Bool :=
  decide (a ∈ [.Onactivate, .Onclick, .Onfocusin, .Onfocusout, .Onload, .Onmousedown, .Onmousemove, .Onmouseout, .Onmouseover, .Onmouseup])

/-- attribute_type.rs:184-194 `is_document_event`. -/
def AttributeId.isDocumentEvent (a : AttributeId) : Bool :=
  decide (a ∈ [.Onabort, .Onerror, .Onresize, .Onscroll, .Onunload, .Onzoom])

/-- attribute_type.rs:196-203 `is_conditional_processing`. -/
def AttributeId.isConditionalProcessing (a : AttributeId) : Bool :=
  decide (a ∈ [.RequiredExtensions, .RequiredFeatures, .SystemLanguage])

/-- attribute_type.rs:205-212 `is_core`. -/
def AttributeId.isCore (a : AttributeId) : Bool :=
  decide (a ∈ [.Base, .Lang, .Space])

/-- attribute_type.rs:214-221 `is_fill`. -/
def AttributeId.isFill (a : AttributeId) : Bool :=
  decide (a ∈ [.Fill, .FillOpacity, .FillRule])

/-- attribute_type.rs:223-235 `is_stroke`. -/
def AttributeId.isStroke (a : AttributeId) : Bool :=
  decide (a ∈ [.Stroke, .StrokeDasharray, .StrokeDashoffset, .StrokeLinecap, .StrokeLinejoin, .StrokeMiterlimit, .StrokeOpacity, .StrokeWidth])

/-- attribute_type.rs:246-269 `is_non_inheritable`. -/
def AttributeId.isNonInheritable (a : AttributeId) : Bool :=
  decide (a ∈ [.AlignmentBaseline, .BaselineShift, .Clip, .ClipPath, .Display, .DominantBaseline, .EnableBackground, .Filter, .FloodColor, .FloodOpacity, .LightingColor, .Mask, .Opacity, .Overflow, .StopColor, .StopOpacity, .TextDecoration, .UnicodeBidi, .Visibility])

/-- attribute_type.rs:150-156 `is_inheritable`. -/
def AttributeId.isInheritable (a : AttributeId) : Bool :=
  if a.isPresentation then !a.isNonInheritable else false

/-- attribute_type.rs:58-80 `is_presentation` of an attribute. -/
def Attribute.isPresentation (a : Attribute) : Bool :=
  match a.name with
  | .id i => i.isPresentation
  | .name _ => false

/-- attribute_type.rs:58-80 `is_inheritable` of an attribute. -/
def Attribute.isInheritable (a : Attribute) : Bool :=
  match a.name with
  | .id i => i.isInheritable
  | .name _ => false

/-- attribute_type.rs:58-80 `is_animation_event` of an attribute. -/
def Attribute.isAnimationEvent (a : Attribute) : Bool :=
  match a.name with
  | .id i => i.isAnimationEvent
  | .name _ => false

/-- attribute_type.rs:58-80 `is_graphical_event` of an attribute. -/
def Attribute.isGraphicalEvent (a : Attribute) : Bool :=
  match a.name with
  | .id i => i.isGraphicalEvent
  | .name _ => false

/-- attribute_type.rs:58-80 `is_document_event` of an attribute. -/
def Attribute.isDocumentEvent (a : Attribute) : Bool :=
  match a.name with
  | .id i => i.isDocumentEvent
  | .name _ => false

/-- attribute_type.rs:58-80 `is_conditional_processing` of an attribute. -/
def Attribute.isConditionalProcessing (a : Attribute) : Bool :=
  match a.name with
  | .id i => i.isConditionalProcessing
  | .name _ => false

/-- attribute_type.rs:58-80 `is_core` of an attribute. -/
def Attribute.isCore (a : Attribute) : Bool :=
  match a.name with
  | .id i => i.isCore
  | .name _ => false

/-- attribute_type.rs:58-80 `is_fill` of an attribute. -/
def Attribute.isFill (a : Attribute) : Bool :=
  match a.name with
  | .id i => i.isFill
  | .name _ => false

/-- attribute_type.rs:58-80 `is_stroke` of an attribute. -/
def Attribute.isStroke (a : Attribute) : Bool :=
  match a.name with
  | .id i => i.isStroke
  | .name _ => false

/-- attribute_value.rs:166-236 `default_value`. -/
def defaultValue (a : AttributeId) : Option AttributeValue :=
  if a ∈ ([.AlignmentBaseline, .Clip, .ColorProfile, .ColorRendering, .Cursor, .DominantBaseline, .GlyphOrientationVertical, .ImageRendering, .Kerning, .ShapeRendering, .TextRendering] : List AttributeId) then some (.string (st!"auto"))
  else if a ∈ ([.ClipPath, .Filter, .FontSizeAdjust, .Marker, .MarkerEnd, .MarkerMid, .MarkerStart, .Mask, .Stroke, .StrokeDasharray, .TextDecoration] : List AttributeId) then some (.none)
  else if a ∈ ([.FontStretch, .FontStyle, .FontVariant, .FontWeight, .LetterSpacing, .UnicodeBidi, .WordSpacing] : List AttributeId) then some (.string (st!"normal"))
  else if a ∈ ([.Fill, .FloodColor, .StopColor] : List AttributeId) then some (.color ⟨0, 0, 0⟩)
  else if a ∈ ([.FillOpacity, .FloodOpacity, .Opacity, .StopOpacity, .StrokeOpacity] : List AttributeId) then some (.number (.fin 1))
  else if a ∈ ([.ClipRule, .FillRule] : List AttributeId) then some (.string (st!"nonzero"))
  else if a ∈ ([.BaselineShift] : List AttributeId) then some (.string (st!"baseline"))
  else if a ∈ ([.ColorInterpolation] : List AttributeId) then some (.string (st!"sRGB"))
  else if a ∈ ([.ColorInterpolationFilters] : List AttributeId) then some (.string (st!"linearRGB"))
  else if a ∈ ([.Direction] : List AttributeId) then some (.string (st!"ltr"))
  else if a ∈ ([.Display] : List AttributeId) then some (.string (st!"inline"))
  else if a ∈ ([.EnableBackground] : List AttributeId) then some (.string (st!"accumulate"))
  else if a ∈ ([.FontSize] : List AttributeId) then some (.string (st!"medium"))
  else if a ∈ ([.GlyphOrientationHorizontal] : List AttributeId) then some (.string (st!"0deg"))
  else if a ∈ ([.LightingColor] : List AttributeId) then some (.color ⟨255, 255, 255⟩)
  else if a ∈ ([.StrokeDashoffset] : List AttributeId) then some (.length ⟨.fin 0, .none⟩)
  else if a ∈ ([.StrokeLinecap] : List AttributeId) then some (.string (st!"butt"))
  else if a ∈ ([.StrokeLinejoin] : List AttributeId) then some (.string (st!"miter"))
  else if a ∈ ([.StrokeMiterlimit] : List AttributeId) then some (.length ⟨.fin 4, .none⟩)
  else if a ∈ ([.StrokeWidth] : List AttributeId) then some (.length ⟨.fin 1, .none⟩)
  else if a ∈ ([.TextAnchor] : List AttributeId) then some (.string (st!"start"))
  else if a ∈ ([.Visibility] : List AttributeId) then some (.string (st!"visible"))
  else if a ∈ ([.WritingMode] : List AttributeId) then some (.string (st!"lr-tb"))
  else none

/-- attribute.rs:43-48 `new_default`. -/
def newDefault (a : AttributeId) : Option Attribute :=
  match defaultValue a with
  | some v => some ⟨.id a, v⟩
  | none => none

end Svgdom
