import Verif.Model.Str

/-!
# Names (generated by `tools/gen_names.py` from `/repo/src/names.rs`, do not edit)

`ElementId`, `AttributeId` in declaration order (so the constructor index is Rust's `x as usize`)
and the two phf tables `ELEMENTS` and `ATTRIBUTES`.
-/

namespace Svgdom

/-- names.rs:9-90 -/
inductive ElementId where
  | A
  | AltGlyph
  | AltGlyphDef
  | AltGlyphItem
  | Animate
  | AnimateColor
  | AnimateMotion
  | AnimateTransform
  | Circle
  | ClipPath
  | ColorProfile
  | Cursor
  | Defs
  | Desc
  | Ellipse
  | FeBlend
  | FeColorMatrix
  | FeComponentTransfer
  | FeComposite
  | FeConvolveMatrix
  | FeDiffuseLighting
  | FeDisplacementMap
  | FeDistantLight
  | FeFlood
  | FeFuncA
  | FeFuncB
  | FeFuncG
  | FeFuncR
  | FeGaussianBlur
  | FeImage
  | FeMerge
  | FeMergeNode
  | FeMorphology
  | FeOffset
  | FePointLight
  | FeSpecularLighting
  | FeSpotLight
  | FeTile
  | FeTurbulence
  | Filter
  | Font
  | FontFace
  | FontFaceFormat
  | FontFaceName
  | FontFaceSrc
  | FontFaceUri
  | ForeignObject
  | G
  | Glyph
  | GlyphRef
  | Hkern
  | Image
  | Line
  | LinearGradient
  | Marker
  | Mask
  | Metadata
  | MissingGlyph
  | Mpath
  | Path
  | Pattern
  | Polygon
  | Polyline
  | RadialGradient
  | Rect
  | Script
  | Set
  | Stop
  | Style
  | Svg
  | Switch
  | Symbol
  | Text
  | TextPath
  | Title
  | Tref
  | Tspan
  | Use
  | View
  | Vkern
deriving DecidableEq, Repr, Inhabited

/-- All ids, in declaration order (names.rs:9-90). -/
def ElementId.all : List ElementId := [
  .A,
  .AltGlyph,
  .AltGlyphDef,
  .AltGlyphItem,
  .Animate,
  .AnimateColor,
  .AnimateMotion,
  .AnimateTransform,
  .Circle,
  .ClipPath,
  .ColorProfile,
  .Cursor,
  .Defs,
  .Desc,
  .Ellipse,
  .FeBlend,
  .FeColorMatrix,
  .FeComponentTransfer,
  .FeComposite,
  .FeConvolveMatrix,
  .FeDiffuseLighting,
  .FeDisplacementMap,
  .FeDistantLight,
  .FeFlood,
  .FeFuncA,
  .FeFuncB,
  .FeFuncG,
  .FeFuncR,
  .FeGaussianBlur,
  .FeImage,
  .FeMerge,
  .FeMergeNode,
  .FeMorphology,
  .FeOffset,
  .FePointLight,
  .FeSpecularLighting,
  .FeSpotLight,
  .FeTile,
  .FeTurbulence,
  .Filter,
  .Font,
  .FontFace,
  .FontFaceFormat,
  .FontFaceName,
  .FontFaceSrc,
  .FontFaceUri,
  .ForeignObject,
  .G,
  .Glyph,
  .GlyphRef,
  .Hkern,
  .Image,
  .Line,
  .LinearGradient,
  .Marker,
  .Mask,
  .Metadata,
  .MissingGlyph,
  .Mpath,
  .Path,
  .Pattern,
  .Polygon,
  .Polyline,
  .RadialGradient,
  .Rect,
  .Script,
  .Set,
  .Stop,
  .Style,
  .Svg,
  .Switch,
  .Symbol,
  .Text,
  .TextPath,
  .Title,
  .Tref,
  .Tspan,
  .Use,
  .View,
  .Vkern]

/-- Position in the enum declaration: Rust `x as usize`. (writer.rs:209.) -/
def ElementId.toNat (a : ElementId) : Nat := a.ctorIdx

theorem ElementId.all_get (a : ElementId) : ElementId.all[a.toNat]? = some a := by cases a <;> rfl

theorem ElementId.mem_all (a : ElementId) : a ∈ ElementId.all := List.mem_of_getElem? (all_get a)

/-- The `key` of names.rs:92-194. -/
def elementsKey : Nat := 732231254413039614

/-- The `disps` of names.rs:92-194. -/
def elementsDisps : List (Nat × Nat) := [(5, 43), (0, 2), (0, 41), (0, 0), (0, 16), (11, 5), (0, 12), (4, 18), (22, 32), (5, 9), (2, 56), (6, 13), (2, 24), (0, 21), (9, 52), (0, 3)]

/-- The `entries` of names.rs:92-194. -/
def elementsEntries : List (Str × ElementId) := [
  (st! "font-face-uri", .FontFaceUri),
  (st! "feFuncR", .FeFuncR),
  (st! "text", .Text),
  (st! "title", .Title),
  (st! "feBlend", .FeBlend),
  (st! "missing-glyph", .MissingGlyph),
  (st! "animateColor", .AnimateColor),
  (st! "marker", .Marker),
  (st! "feMergeNode", .FeMergeNode),
  (st! "filter", .Filter),
  (st! "feOffset", .FeOffset),
  (st! "feSpecularLighting", .FeSpecularLighting),
  (st! "stop", .Stop),
  (st! "clipPath", .ClipPath),
  (st! "line", .Line),
  (st! "ellipse", .Ellipse),
  (st! "radialGradient", .RadialGradient),
  (st! "feConvolveMatrix", .FeConvolveMatrix),
  (st! "feMerge", .FeMerge),
  (st! "feDiffuseLighting", .FeDiffuseLighting),
  (st! "feFuncG", .FeFuncG),
  (st! "feMorphology", .FeMorphology),
  (st! "color-profile", .ColorProfile),
  (st! "use", .Use),
  (st! "animate", .Animate),
  (st! "polyline", .Polyline),
  (st! "hkern", .Hkern),
  (st! "svg", .Svg),
  (st! "feComposite", .FeComposite),
  (st! "rect", .Rect),
  (st! "font-face", .FontFace),
  (st! "a", .A),
  (st! "path", .Path),
  (st! "linearGradient", .LinearGradient),
  (st! "feComponentTransfer", .FeComponentTransfer),
  (st! "feTile", .FeTile),
  (st! "altGlyphDef", .AltGlyphDef),
  (st! "feFuncA", .FeFuncA),
  (st! "symbol", .Symbol),
  (st! "glyphRef", .GlyphRef),
  (st! "glyph", .Glyph),
  (st! "style", .Style),
  (st! "switch", .Switch),
  (st! "set", .Set),
  (st! "font-face-name", .FontFaceName),
  (st! "font-face-src", .FontFaceSrc),
  (st! "font-face-format", .FontFaceFormat),
  (st! "feFlood", .FeFlood),
  (st! "tref", .Tref),
  (st! "feFuncB", .FeFuncB),
  (st! "mpath", .Mpath),
  (st! "animateMotion", .AnimateMotion),
  (st! "defs", .Defs),
  (st! "feGaussianBlur", .FeGaussianBlur),
  (st! "view", .View),
  (st! "foreignObject", .ForeignObject),
  (st! "tspan", .Tspan),
  (st! "altGlyph", .AltGlyph),
  (st! "cursor", .Cursor),
  (st! "feDisplacementMap", .FeDisplacementMap),
  (st! "pattern", .Pattern),
  (st! "mask", .Mask),
  (st! "font", .Font),
  (st! "desc", .Desc),
  (st! "feImage", .FeImage),
  (st! "feColorMatrix", .FeColorMatrix),
  (st! "feTurbulence", .FeTurbulence),
  (st! "feDistantLight", .FeDistantLight),
  (st! "g", .G),
  (st! "fePointLight", .FePointLight),
  (st! "feSpotLight", .FeSpotLight),
  (st! "script", .Script),
  (st! "image", .Image),
  (st! "metadata", .Metadata),
  (st! "vkern", .Vkern),
  (st! "textPath", .TextPath),
  (st! "polygon", .Polygon),
  (st! "circle", .Circle),
  (st! "altGlyphItem", .AltGlyphItem),
  (st! "animateTransform", .AnimateTransform)]

/-- names.rs:223-494 -/
inductive AttributeId where
  | AccentHeight
  | Accumulate
  | Actuate
  | Additive
  | AlignmentBaseline
  | Alphabetic
  | Amplitude
  | ArabicForm
  | Arcrole
  | Ascent
  | AttributeName
  | AttributeType
  | Azimuth
  | Base
  | BaseFrequency
  | BaselineShift
  | BaseProfile
  | Bbox
  | Begin
  | Bias
  | By
  | CalcMode
  | CapHeight
  | Class
  | Clip
  | ClipPath
  | ClipRule
  | ClipPathUnits
  | Color
  | ColorInterpolation
  | ColorInterpolationFilters
  | ColorProfile
  | ColorRendering
  | ContentScriptType
  | ContentStyleType
  | Cursor
  | Cx
  | Cy
  | D
  | Descent
  | DiffuseConstant
  | Direction
  | Display
  | Divisor
  | DominantBaseline
  | Dur
  | Dx
  | Dy
  | EdgeMode
  | Elevation
  | EnableBackground
  | Encoding
  | End
  | Exponent
  | ExternalResourcesRequired
  | Fill
  | FillOpacity
  | FillRule
  | Filter
  | FilterRes
  | FilterUnits
  | FloodColor
  | FloodOpacity
  | Font
  | FontFamily
  | FontSize
  | FontSizeAdjust
  | FontStretch
  | FontStyle
  | FontVariant
  | FontWeight
  | Format
  | From
  | Fx
  | Fy
  | G1
  | G2
  | GlyphName
  | GlyphOrientationHorizontal
  | GlyphOrientationVertical
  | GlyphRef
  | GradientTransform
  | GradientUnits
  | Hanging
  | Height
  | HorizAdvX
  | HorizOriginX
  | HorizOriginY
  | Href
  | Id
  | Ideographic
  | ImageRendering
  | In
  | In2
  | Intercept
  | K
  | K1
  | K2
  | K3
  | K4
  | KernelMatrix
  | KernelUnitLength
  | Kerning
  | KeyPoints
  | KeySplines
  | KeyTimes
  | Lang
  | LengthAdjust
  | LetterSpacing
  | LightingColor
  | LimitingConeAngle
  | LineHeight
  | Local
  | Marker
  | MarkerEnd
  | MarkerMid
  | MarkerStart
  | MarkerHeight
  | MarkerUnits
  | MarkerWidth
  | Mask
  | MaskContentUnits
  | MaskUnits
  | Mathematical
  | Max
  | Media
  | Method
  | Min
  | Mode
  | Name
  | NumOctaves
  | Offset
  | Onabort
  | Onactivate
  | Onbegin
  | Onclick
  | Onend
  | Onerror
  | Onfocusin
  | Onfocusout
  | Onload
  | Onmousedown
  | Onmousemove
  | Onmouseout
  | Onmouseover
  | Onmouseup
  | Onrepeat
  | Onresize
  | Onscroll
  | Onunload
  | Onzoom
  | Opacity
  | Operator
  | Order
  | Orient
  | Orientation
  | Origin
  | Overflow
  | OverlinePosition
  | OverlineThickness
  | Panose1
  | Path
  | PathLength
  | PatternContentUnits
  | PatternTransform
  | PatternUnits
  | PointerEvents
  | Points
  | PointsAtX
  | PointsAtY
  | PointsAtZ
  | PreserveAlpha
  | PreserveAspectRatio
  | PrimitiveUnits
  | R
  | Radius
  | RefX
  | RefY
  | RenderingIntent
  | RepeatCount
  | RepeatDur
  | RequiredExtensions
  | RequiredFeatures
  | Restart
  | Result
  | Role
  | Rotate
  | Rx
  | Ry
  | Scale
  | Seed
  | ShapeRendering
  | Show
  | Slope
  | Space
  | Spacing
  | SpecularConstant
  | SpecularExponent
  | SpreadMethod
  | Standalone
  | StartOffset
  | StdDeviation
  | Stemh
  | Stemv
  | StitchTiles
  | StopColor
  | StopOpacity
  | StrikethroughPosition
  | StrikethroughThickness
  | String
  | Stroke
  | StrokeDasharray
  | StrokeDashoffset
  | StrokeLinecap
  | StrokeLinejoin
  | StrokeMiterlimit
  | StrokeOpacity
  | StrokeWidth
  | Style
  | SurfaceScale
  | SystemLanguage
  | TableValues
  | Target
  | TargetX
  | TargetY
  | TextAnchor
  | TextDecoration
  | TextRendering
  | TextLength
  | Title
  | To
  | Transform
  | «Type»
  | U1
  | U2
  | UnderlinePosition
  | UnderlineThickness
  | Unicode
  | UnicodeBidi
  | UnicodeRange
  | UnitsPerEm
  | VAlphabetic
  | VHanging
  | VIdeographic
  | VMathematical
  | Values
  | Version
  | VertAdvY
  | VertOriginX
  | VertOriginY
  | ViewBox
  | ViewTarget
  | Visibility
  | Width
  | Widths
  | WordSpacing
  | WritingMode
  | X
  | XHeight
  | X1
  | X2
  | XChannelSelector
  | Xlink
  | Xmlns
  | Y
  | Y1
  | Y2
  | YChannelSelector
  | Z
  | ZoomAndPan
deriving DecidableEq, Repr, Inhabited

/-- All ids, in declaration order (names.rs:223-494). -/
def AttributeId.all : List AttributeId := [
  .AccentHeight,
  .Accumulate,
  .Actuate,
  .Additive,
  .AlignmentBaseline,
  .Alphabetic,
  .Amplitude,
  .ArabicForm,
  .Arcrole,
  .Ascent,
  .AttributeName,
  .AttributeType,
  .Azimuth,
  .Base,
  .BaseFrequency,
  .BaselineShift,
  .BaseProfile,
  .Bbox,
  .Begin,
  .Bias,
  .By,
  .CalcMode,
  .CapHeight,
  .Class,
  .Clip,
  .ClipPath,
  .ClipRule,
  .ClipPathUnits,
  .Color,
  .ColorInterpolation,
  .ColorInterpolationFilters,
  .ColorProfile,
  .ColorRendering,
  .ContentScriptType,
  .ContentStyleType,
  .Cursor,
  .Cx,
  .Cy,
  .D,
  .Descent,
  .DiffuseConstant,
  .Direction,
  .Display,
  .Divisor,
  .DominantBaseline,
  .Dur,
  .Dx,
  .Dy,
  .EdgeMode,
  .Elevation,
  .EnableBackground,
  .Encoding,
  .End,
  .Exponent,
  .ExternalResourcesRequired,
  .Fill,
  .FillOpacity,
  .FillRule,
  .Filter,
  .FilterRes,
  .FilterUnits,
  .FloodColor,
  .FloodOpacity,
  .Font,
  .FontFamily,
  .FontSize,
  .FontSizeAdjust,
  .FontStretch,
  .FontStyle,
  .FontVariant,
  .FontWeight,
  .Format,
  .From,
  .Fx,
  .Fy,
  .G1,
  .G2,
  .GlyphName,
  .GlyphOrientationHorizontal,
  .GlyphOrientationVertical,
  .GlyphRef,
  .GradientTransform,
  .GradientUnits,
  .Hanging,
  .Height,
  .HorizAdvX,
  .HorizOriginX,
  .HorizOriginY,
  .Href,
  .Id,
  .Ideographic,
  .ImageRendering,
  .In,
  .In2,
  .Intercept,
  .K,
  .K1,
  .K2,
  .K3,
  .K4,
  .KernelMatrix,
  .KernelUnitLength,
  .Kerning,
  .KeyPoints,
  .KeySplines,
  .KeyTimes,
  .Lang,
  .LengthAdjust,
  .LetterSpacing,
  .LightingColor,
  .LimitingConeAngle,
  .LineHeight,
  .Local,
  .Marker,
  .MarkerEnd,
  .MarkerMid,
  .MarkerStart,
  .MarkerHeight,
  .MarkerUnits,
  .MarkerWidth,
  .Mask,
  .MaskContentUnits,
  .MaskUnits,
  .Mathematical,
  .Max,
  .Media,
  .Method,
  .Min,
  .Mode,
  .Name,
  .NumOctaves,
  .Offset,
  .Onabort,
  .Onactivate,
  .Onbegin,
  .Onclick,
  .Onend,
  .Onerror,
  .Onfocusin,
  .Onfocusout,
  .Onload,
  .Onmousedown,
  .Onmousemove,
  .Onmouseout,
  .Onmouseover,
  .Onmouseup,
  .Onrepeat,
  .Onresize,
  .Onscroll,
  .Onunload,
  .Onzoom,
  .Opacity,
  .Operator,
  .Order,
  .Orient,
  .Orientation,
  .Origin,
  .Overflow,
  .OverlinePosition,
  .OverlineThickness,
  .Panose1,
  .Path,
  .PathLength,
  .PatternContentUnits,
  .PatternTransform,
  .PatternUnits,
  .PointerEvents,
  .Points,
  .PointsAtX,
  .PointsAtY,
  .PointsAtZ,
  .PreserveAlpha,
  .PreserveAspectRatio,
  .PrimitiveUnits,
  .R,
  .Radius,
  .RefX,
  .RefY,
  .RenderingIntent,
  .RepeatCount,
  .RepeatDur,
  .RequiredExtensions,
  .RequiredFeatures,
  .Restart,
  .Result,
  .Role,
  .Rotate,
  .Rx,
  .Ry,
  .Scale,
  .Seed,
  .ShapeRendering,
  .Show,
  .Slope,
  .Space,
  .Spacing,
  .SpecularConstant,
  .SpecularExponent,
  .SpreadMethod,
  .Standalone,
  .StartOffset,
  .StdDeviation,
  .Stemh,
  .Stemv,
  .StitchTiles,
  .StopColor,
  .StopOpacity,
  .StrikethroughPosition,
  .StrikethroughThickness,
  .String,
  .Stroke,
  .StrokeDasharray,
  .StrokeDashoffset,
  .StrokeLinecap,
  .StrokeLinejoin,
  .StrokeMiterlimit,
  .StrokeOpacity,
  .StrokeWidth,
  .Style,
  .SurfaceScale,
  .SystemLanguage,
  .TableValues,
  .Target,
  .TargetX,
  .TargetY,
  .TextAnchor,
  .TextDecoration,
  .TextRendering,
  .TextLength,
  .Title,
  .To,
  .Transform,
  .«Type»,
  .U1,
  .U2,
  .UnderlinePosition,
  .UnderlineThickness,
  .Unicode,
  .UnicodeBidi,
  .UnicodeRange,
  .UnitsPerEm,
  .VAlphabetic,
  .VHanging,
  .VIdeographic,
  .VMathematical,
  .Values,
  .Version,
  .VertAdvY,
  .VertOriginX,
  .VertOriginY,
  .ViewBox,
  .ViewTarget,
  .Visibility,
  .Width,
  .Widths,
  .WordSpacing,
  .WritingMode,
  .X,
  .XHeight,
  .X1,
  .X2,
  .XChannelSelector,
  .Xlink,
  .Xmlns,
  .Y,
  .Y1,
  .Y2,
  .YChannelSelector,
  .Z,
  .ZoomAndPan]

/-- Position in the enum declaration: Rust `x as usize`. (writer.rs:209.) -/
def AttributeId.toNat (a : AttributeId) : Nat := a.ctorIdx

theorem AttributeId.all_get (a : AttributeId) : AttributeId.all[a.toNat]? = some a := by cases a <;> rfl

theorem AttributeId.mem_all (a : AttributeId) : a ∈ AttributeId.all := List.mem_of_getElem? (all_get a)

/-- The `key` of names.rs:496-826. -/
def attributesKey : Nat := 732231254413039614

/-- The `disps` of names.rs:496-826. -/
def attributesDisps : List (Nat × Nat) := [(0, 1), (1, 123), (0, 115), (0, 2), (0, 2), (0, 16), (1, 155), (1, 26), (1, 211), (0, 5), (0, 227), (1, 96), (0, 141), (0, 2), (0, 211), (0, 18), (0, 19), (0, 17), (2, 105), (3, 1), (0, 28), (0, 9), (0, 242), (0, 27), (0, 17), (0, 68), (6, 41), (8, 57), (0, 125), (20, 219), (0, 54), (3, 93), (0, 29), (7, 60), (3, 192), (2, 96), (0, 262), (5, 50), (0, 3), (0, 111), (0, 39), (0, 17), (0, 1), (0, 217), (0, 0), (3, 159), (0, 20), (3, 57), (0, 52), (14, 224), (0, 0), (9, 236), (20, 213), (4, 265)]

/-- The `entries` of names.rs:496-826. -/
def attributesEntries : List (Str × AttributeId) := [
  (st! "order", .Order),
  (st! "lengthAdjust", .LengthAdjust),
  (st! "offset", .Offset),
  (st! "cy", .Cy),
  (st! "azimuth", .Azimuth),
  (st! "viewTarget", .ViewTarget),
  (st! "systemLanguage", .SystemLanguage),
  (st! "exponent", .Exponent),
  (st! "targetX", .TargetX),
  (st! "specularConstant", .SpecularConstant),
  (st! "gradientTransform", .GradientTransform),
  (st! "onclick", .Onclick),
  (st! "opacity", .Opacity),
  (st! "string", .String),
  (st! "onbegin", .Onbegin),
  (st! "k4", .K4),
  (st! "clip-path", .ClipPath),
  (st! "bias", .Bias),
  (st! "font", .Font),
  (st! "dx", .Dx),
  (st! "y1", .Y1),
  (st! "keyTimes", .KeyTimes),
  (st! "markerUnits", .MarkerUnits),
  (st! "stdDeviation", .StdDeviation),
  (st! "baseProfile", .BaseProfile),
  (st! "class", .Class),
  (st! "vert-adv-y", .VertAdvY),
  (st! "widths", .Widths),
  (st! "vert-origin-x", .VertOriginX),
  (st! "color-profile", .ColorProfile),
  (st! "k1", .K1),
  (st! "path", .Path),
  (st! "markerWidth", .MarkerWidth),
  (st! "surfaceScale", .SurfaceScale),
  (st! "space", .Space),
  (st! "onmouseup", .Onmouseup),
  (st! "y", .Y),
  (st! "text-decoration", .TextDecoration),
  (st! "patternUnits", .PatternUnits),
  (st! "lighting-color", .LightingColor),
  (st! "color-interpolation-filters", .ColorInterpolationFilters),
  (st! "bbox", .Bbox),
  (st! "startOffset", .StartOffset),
  (st! "to", .To),
  (st! "version", .Version),
  (st! "targetY", .TargetY),
  (st! "style", .Style),
  (st! "method", .Method),
  (st! "stemh", .Stemh),
  (st! "x", .X),
  (st! "externalResourcesRequired", .ExternalResourcesRequired),
  (st! "k", .K),
  (st! "onmousemove", .Onmousemove),
  (st! "format", .Format),
  (st! "role", .Role),
  (st! "specularExponent", .SpecularExponent),
  (st! "patternTransform", .PatternTransform),
  (st! "points", .Points),
  (st! "markerHeight", .MarkerHeight),
  (st! "stitchTiles", .StitchTiles),
  (st! "fill-rule", .FillRule),
  (st! "g1", .G1),
  (st! "unicode", .Unicode),
  (st! "horiz-origin-y", .HorizOriginY),
  (st! "amplitude", .Amplitude),
  (st! "baseFrequency", .BaseFrequency),
  (st! "from", .From),
  (st! "text-anchor", .TextAnchor),
  (st! "kernelMatrix", .KernelMatrix),
  (st! "clipPathUnits", .ClipPathUnits),
  (st! "panose-1", .Panose1),
  (st! "pointer-events", .PointerEvents),
  (st! "radius", .Radius),
  (st! "local", .Local),
  (st! "type", .«Type»),
  (st! "min", .Min),
  (st! "id", .Id),
  (st! "kernelUnitLength", .KernelUnitLength),
  (st! "descent", .Descent),
  (st! "direction", .Direction),
  (st! "encoding", .Encoding),
  (st! "calcMode", .CalcMode),
  (st! "attributeType", .AttributeType),
  (st! "onfocusin", .Onfocusin),
  (st! "values", .Values),
  (st! "baseline-shift", .BaselineShift),
  (st! "u2", .U2),
  (st! "letter-spacing", .LetterSpacing),
  (st! "fill-opacity", .FillOpacity),
  (st! "image-rendering", .ImageRendering),
  (st! "flood-opacity", .FloodOpacity),
  (st! "xmlns", .Xmlns),
  (st! "spacing", .Spacing),
  (st! "rx", .Rx),
  (st! "repeatCount", .RepeatCount),
  (st! "horiz-origin-x", .HorizOriginX),
  (st! "stroke", .Stroke),
  (st! "ry", .Ry),
  (st! "href", .Href),
  (st! "maskUnits", .MaskUnits),
  (st! "font-family", .FontFamily),
  (st! "onmousedown", .Onmousedown),
  (st! "xChannelSelector", .XChannelSelector),
  (st! "height", .Height),
  (st! "v-hanging", .VHanging),
  (st! "arabic-form", .ArabicForm),
  (st! "max", .Max),
  (st! "target", .Target),
  (st! "filterUnits", .FilterUnits),
  (st! "scale", .Scale),
  (st! "clip", .Clip),
  (st! "onmouseover", .Onmouseover),
  (st! "show", .Show),
  (st! "refX", .RefX),
  (st! "overline-position", .OverlinePosition),
  (st! "origin", .Origin),
  (st! "arcrole", .Arcrole),
  (st! "stroke-opacity", .StrokeOpacity),
  (st! "filterRes", .FilterRes),
  (st! "contentScriptType", .ContentScriptType),
  (st! "seed", .Seed),
  (st! "onactivate", .Onactivate),
  (st! "shape-rendering", .ShapeRendering),
  (st! "v-mathematical", .VMathematical),
  (st! "vert-origin-y", .VertOriginY),
  (st! "pointsAtX", .PointsAtX),
  (st! "stroke-width", .StrokeWidth),
  (st! "dominant-baseline", .DominantBaseline),
  (st! "divisor", .Divisor),
  (st! "in2", .In2),
  (st! "onresize", .Onresize),
  (st! "width", .Width),
  (st! "y2", .Y2),
  (st! "strikethrough-position", .StrikethroughPosition),
  (st! "font-size-adjust", .FontSizeAdjust),
  (st! "glyph-orientation-vertical", .GlyphOrientationVertical),
  (st! "onfocusout", .Onfocusout),
  (st! "pathLength", .PathLength),
  (st! "fill", .Fill),
  (st! "color-interpolation", .ColorInterpolation),
  (st! "yChannelSelector", .YChannelSelector),
  (st! "rendering-intent", .RenderingIntent),
  (st! "contentStyleType", .ContentStyleType),
  (st! "font-style", .FontStyle),
  (st! "base", .Base),
  (st! "writing-mode", .WritingMode),
  (st! "unicode-bidi", .UnicodeBidi),
  (st! "refY", .RefY),
  (st! "title", .Title),
  (st! "result", .Result),
  (st! "cx", .Cx),
  (st! "flood-color", .FloodColor),
  (st! "stroke-dashoffset", .StrokeDashoffset),
  (st! "edgeMode", .EdgeMode),
  (st! "font-weight", .FontWeight),
  (st! "lang", .Lang),
  (st! "requiredExtensions", .RequiredExtensions),
  (st! "orient", .Orient),
  (st! "marker", .Marker),
  (st! "font-size", .FontSize),
  (st! "onmouseout", .Onmouseout),
  (st! "font-variant", .FontVariant),
  (st! "onzoom", .Onzoom),
  (st! "limitingConeAngle", .LimitingConeAngle),
  (st! "onrepeat", .Onrepeat),
  (st! "in", .In),
  (st! "pointsAtZ", .PointsAtZ),
  (st! "zoomAndPan", .ZoomAndPan),
  (st! "mask", .Mask),
  (st! "begin", .Begin),
  (st! "v-alphabetic", .VAlphabetic),
  (st! "keyPoints", .KeyPoints),
  (st! "g2", .G2),
  (st! "glyphRef", .GlyphRef),
  (st! "name", .Name),
  (st! "visibility", .Visibility),
  (st! "ideographic", .Ideographic),
  (st! "font-stretch", .FontStretch),
  (st! "display", .Display),
  (st! "overflow", .Overflow),
  (st! "stroke-linecap", .StrokeLinecap),
  (st! "color-rendering", .ColorRendering),
  (st! "stop-opacity", .StopOpacity),
  (st! "accumulate", .Accumulate),
  (st! "word-spacing", .WordSpacing),
  (st! "glyph-orientation-horizontal", .GlyphOrientationHorizontal),
  (st! "tableValues", .TableValues),
  (st! "line-height", .LineHeight),
  (st! "kerning", .Kerning),
  (st! "enable-background", .EnableBackground),
  (st! "x-height", .XHeight),
  (st! "gradientUnits", .GradientUnits),
  (st! "stemv", .Stemv),
  (st! "viewBox", .ViewBox),
  (st! "glyph-name", .GlyphName),
  (st! "k3", .K3),
  (st! "textLength", .TextLength),
  (st! "preserveAlpha", .PreserveAlpha),
  (st! "onload", .Onload),
  (st! "operator", .Operator),
  (st! "horiz-adv-x", .HorizAdvX),
  (st! "v-ideographic", .VIdeographic),
  (st! "cap-height", .CapHeight),
  (st! "restart", .Restart),
  (st! "fy", .Fy),
  (st! "intercept", .Intercept),
  (st! "fx", .Fx),
  (st! "alphabetic", .Alphabetic),
  (st! "onscroll", .Onscroll),
  (st! "end", .End),
  (st! "color", .Color),
  (st! "accent-height", .AccentHeight),
  (st! "patternContentUnits", .PatternContentUnits),
  (st! "numOctaves", .NumOctaves),
  (st! "x2", .X2),
  (st! "units-per-em", .UnitsPerEm),
  (st! "stroke-linejoin", .StrokeLinejoin),
  (st! "attributeName", .AttributeName),
  (st! "mathematical", .Mathematical),
  (st! "underline-thickness", .UnderlineThickness),
  (st! "ascent", .Ascent),
  (st! "orientation", .Orientation),
  (st! "keySplines", .KeySplines),
  (st! "hanging", .Hanging),
  (st! "z", .Z),
  (st! "primitiveUnits", .PrimitiveUnits),
  (st! "diffuseConstant", .DiffuseConstant),
  (st! "strikethrough-thickness", .StrikethroughThickness),
  (st! "cursor", .Cursor),
  (st! "marker-end", .MarkerEnd),
  (st! "clip-rule", .ClipRule),
  (st! "marker-mid", .MarkerMid),
  (st! "x1", .X1),
  (st! "requiredFeatures", .RequiredFeatures),
  (st! "alignment-baseline", .AlignmentBaseline),
  (st! "unicode-range", .UnicodeRange),
  (st! "stop-color", .StopColor),
  (st! "elevation", .Elevation),
  (st! "k2", .K2),
  (st! "dy", .Dy),
  (st! "mode", .Mode),
  (st! "repeatDur", .RepeatDur),
  (st! "actuate", .Actuate),
  (st! "by", .By),
  (st! "pointsAtY", .PointsAtY),
  (st! "r", .R),
  (st! "additive", .Additive),
  (st! "rotate", .Rotate),
  (st! "slope", .Slope),
  (st! "media", .Media),
  (st! "maskContentUnits", .MaskContentUnits),
  (st! "spreadMethod", .SpreadMethod),
  (st! "filter", .Filter),
  (st! "text-rendering", .TextRendering),
  (st! "underline-position", .UnderlinePosition),
  (st! "onabort", .Onabort),
  (st! "dur", .Dur),
  (st! "xlink", .Xlink),
  (st! "stroke-miterlimit", .StrokeMiterlimit),
  (st! "onerror", .Onerror),
  (st! "onend", .Onend),
  (st! "stroke-dasharray", .StrokeDasharray),
  (st! "d", .D),
  (st! "preserveAspectRatio", .PreserveAspectRatio),
  (st! "standalone", .Standalone),
  (st! "transform", .Transform),
  (st! "marker-start", .MarkerStart),
  (st! "u1", .U1),
  (st! "overline-thickness", .OverlineThickness),
  (st! "onunload", .Onunload)]

end Svgdom
