import Verif.Model.Names

/-!
# Inputs of the table generator (generated by `tools/gen_files.py` from `/repo/codegen` and `/repo/src/names.rs`, do not edit)

The two text files as they are, cut into pieces after line feeds only to keep the lines short, and the identifiers of the enum variants.
-/

set_option autoImplicit false

namespace Svgdom

/-- codegen/elements.txt, the whole file. -/
def elementsTxt : Str := List.flatten [
  st! "a\naltGlyph\naltGlyphDef\naltGlyphItem\nanimate\nanimateColor\n",
  st! "animateMotion\nanimateTransform\ncircle\nclipPath\ncolor-profile\ncursor\n",
  st! "defs\ndesc\nellipse\nfeBlend\nfeColorMatrix\nfeComponentTransfer\n",
  st! "feComposite\nfeConvolveMatrix\nfeDiffuseLighting\nfeDisplacementMap\nfeDistantLight\nfeFlood\n",
  st! "feFuncA\nfeFuncB\nfeFuncG\nfeFuncR\nfeGaussianBlur\nfeImage\n",
  st! "feMerge\nfeMergeNode\nfeMorphology\nfeOffset\nfePointLight\nfeSpecularLighting\n",
  st! "feSpotLight\nfeTile\nfeTurbulence\nfilter\nfont\nfont-face\n",
  st! "font-face-format\nfont-face-name\nfont-face-src\nfont-face-uri\nforeignObject\ng\n",
  st! "glyph\nglyphRef\nhkern\nimage\nline\nlinearGradient\n",
  st! "marker\nmask\nmetadata\nmissing-glyph\nmpath\npath\n",
  st! "pattern\npolygon\npolyline\nradialGradient\nrect\nscript\n",
  st! "set\nstop\nstyle\nsvg\nswitch\nsymbol\n",
  st! "text\ntextPath\ntitle\ntref\ntspan\nuse\n",
  st! "view\nvkern\n"]

/-- names.rs:9-90: the identifiers of the variants. -/
def ElementId.variant : ElementId → Str
  | .A => st! "A"
  | .AltGlyph => st! "AltGlyph"
  | .AltGlyphDef => st! "AltGlyphDef"
  | .AltGlyphItem => st! "AltGlyphItem"
  | .Animate => st! "Animate"
  | .AnimateColor => st! "AnimateColor"
  | .AnimateMotion => st! "AnimateMotion"
  | .AnimateTransform => st! "AnimateTransform"
  | .Circle => st! "Circle"
  | .ClipPath => st! "ClipPath"
  | .ColorProfile => st! "ColorProfile"
  | .Cursor => st! "Cursor"
  | .Defs => st! "Defs"
  | .Desc => st! "Desc"
  | .Ellipse => st! "Ellipse"
  | .FeBlend => st! "FeBlend"
  | .FeColorMatrix => st! "FeColorMatrix"
  | .FeComponentTransfer => st! "FeComponentTransfer"
  | .FeComposite => st! "FeComposite"
  | .FeConvolveMatrix => st! "FeConvolveMatrix"
  | .FeDiffuseLighting => st! "FeDiffuseLighting"
  | .FeDisplacementMap => st! "FeDisplacementMap"
  | .FeDistantLight => st! "FeDistantLight"
  | .FeFlood => st! "FeFlood"
  | .FeFuncA => st! "FeFuncA"
  | .FeFuncB => st! "FeFuncB"
  | .FeFuncG => st! "FeFuncG"
  | .FeFuncR => st! "FeFuncR"
  | .FeGaussianBlur => st! "FeGaussianBlur"
  | .FeImage => st! "FeImage"
  | .FeMerge => st! "FeMerge"
  | .FeMergeNode => st! "FeMergeNode"
  | .FeMorphology => st! "FeMorphology"
  | .FeOffset => st! "FeOffset"
  | .FePointLight => st! "FePointLight"
  | .FeSpecularLighting => st! "FeSpecularLighting"
  | .FeSpotLight => st! "FeSpotLight"
  | .FeTile => st! "FeTile"
  | .FeTurbulence => st! "FeTurbulence"
  | .Filter => st! "Filter"
  | .Font => st! "Font"
  | .FontFace => st! "FontFace"
  | .FontFaceFormat => st! "FontFaceFormat"
  | .FontFaceName => st! "FontFaceName"
  | .FontFaceSrc => st! "FontFaceSrc"
  | .FontFaceUri => st! "FontFaceUri"
  | .ForeignObject => st! "ForeignObject"
  | .G => st! "G"
  | .Glyph => st! "Glyph"
  | .GlyphRef => st! "GlyphRef"
  | .Hkern => st! "Hkern"
  | .Image => st! "Image"
  | .Line => st! "Line"
  | .LinearGradient => st! "LinearGradient"
  | .Marker => st! "Marker"
  | .Mask => st! "Mask"
  | .Metadata => st! "Metadata"
  | .MissingGlyph => st! "MissingGlyph"
  | .Mpath => st! "Mpath"
  | .Path => st! "Path"
  | .Pattern => st! "Pattern"
  | .Polygon => st! "Polygon"
  | .Polyline => st! "Polyline"
  | .RadialGradient => st! "RadialGradient"
  | .Rect => st! "Rect"
  | .Script => st! "Script"
  | .Set => st! "Set"
  | .Stop => st! "Stop"
  | .Style => st! "Style"
  | .Svg => st! "Svg"
  | .Switch => st! "Switch"
  | .Symbol => st! "Symbol"
  | .Text => st! "Text"
  | .TextPath => st! "TextPath"
  | .Title => st! "Title"
  | .Tref => st! "Tref"
  | .Tspan => st! "Tspan"
  | .Use => st! "Use"
  | .View => st! "View"
  | .Vkern => st! "Vkern"

/-- codegen/attributes.txt, the whole file. -/
def attributesTxt : Str := List.flatten [
  st! "accent-height\naccumulate\nactuate\nadditive\nalignment-baseline\nalphabetic\n",
  st! "amplitude\narabic-form\narcrole\nascent\nattributeName\nattributeType\n",
  st! "azimuth\nbase\nbaseFrequency\nbaseline-shift\nbaseProfile\nbbox\n",
  st! "begin\nbias\nby\ncalcMode\ncap-height\nclass\n",
  st! "clip\nclip-path\nclip-rule\nclipPathUnits\ncolor\ncolor-interpolation\n",
  st! "color-interpolation-filters\ncolor-profile\ncolor-rendering\ncontentScriptType\ncontentStyleType\ncursor\n",
  st! "cx\ncy\nd\ndescent\ndiffuseConstant\ndirection\n",
  st! "display\ndivisor\ndominant-baseline\ndur\ndx\ndy\n",
  st! "edgeMode\nelevation\nenable-background\nencoding\nend\nexponent\n",
  st! "externalResourcesRequired\nfill\nfill-opacity\nfill-rule\nfilter\nfilterRes\n",
  st! "filterUnits\nflood-color\nflood-opacity\nfont\nfont-family\nfont-size\n",
  st! "font-size-adjust\nfont-stretch\nfont-style\nfont-variant\nfont-weight\nformat\n",
  st! "from\nfx\nfy\ng1\ng2\nglyph-name\n",
  st! "glyph-orientation-horizontal\nglyph-orientation-vertical\nglyphRef\ngradientTransform\ngradientUnits\nhanging\n",
  st! "height\nhoriz-adv-x\nhoriz-origin-x\nhoriz-origin-y\nhref\nid\n",
  st! "ideographic\nimage-rendering\nin\nin2\nintercept\nk\n",
  st! "k1\nk2\nk3\nk4\nkernelMatrix\nkernelUnitLength\n",
  st! "kerning\nkeyPoints\nkeySplines\nkeyTimes\nlang\nlengthAdjust\n",
  st! "letter-spacing\nlighting-color\nlimitingConeAngle\nline-height\nlocal\nmarker\n",
  st! "marker-end\nmarker-mid\nmarker-start\nmarkerHeight\nmarkerUnits\nmarkerWidth\n",
  st! "mask\nmaskContentUnits\nmaskUnits\nmathematical\nmax\nmedia\n",
  st! "method\nmin\nmode\nname\nnumOctaves\noffset\n",
  st! "onabort\nonactivate\nonbegin\nonclick\nonend\nonerror\n",
  st! "onfocusin\nonfocusout\nonload\nonmousedown\nonmousemove\nonmouseout\n",
  st! "onmouseover\nonmouseup\nonrepeat\nonresize\nonscroll\nonunload\n",
  st! "onzoom\nopacity\noperator\norder\norient\norientation\n",
  st! "origin\noverflow\noverline-position\noverline-thickness\npanose-1\npath\n",
  st! "pathLength\npatternContentUnits\npatternTransform\npatternUnits\npointer-events\npoints\n",
  st! "pointsAtX\npointsAtY\npointsAtZ\npreserveAlpha\npreserveAspectRatio\nprimitiveUnits\n",
  st! "r\nradius\nrefX\nrefY\nrendering-intent\nrepeatCount\n",
  st! "repeatDur\nrequiredExtensions\nrequiredFeatures\nrestart\nresult\nrole\n",
  st! "rotate\nrx\nry\nscale\nseed\nshape-rendering\n",
  st! "show\nslope\nspace\nspacing\nspecularConstant\nspecularExponent\n",
  st! "spreadMethod\nstandalone\nstartOffset\nstdDeviation\nstemh\nstemv\n",
  st! "stitchTiles\nstop-color\nstop-opacity\nstrikethrough-position\nstrikethrough-thickness\nstring\n",
  st! "stroke\nstroke-dasharray\nstroke-dashoffset\nstroke-linecap\nstroke-linejoin\nstroke-miterlimit\n",
  st! "stroke-opacity\nstroke-width\nstyle\nsurfaceScale\nsystemLanguage\ntableValues\n",
  st! "target\ntargetX\ntargetY\ntext-anchor\ntext-decoration\ntext-rendering\n",
  st! "textLength\ntitle\nto\ntransform\ntype\nu1\n",
  st! "u2\nunderline-position\nunderline-thickness\nunicode\nunicode-bidi\nunicode-range\n",
  st! "units-per-em\nv-alphabetic\nv-hanging\nv-ideographic\nv-mathematical\nvalues\n",
  st! "version\nvert-adv-y\nvert-origin-x\nvert-origin-y\nviewBox\nviewTarget\n",
  st! "visibility\nwidth\nwidths\nword-spacing\nwriting-mode\nx\n",
  st! "x-height\nx1\nx2\nxChannelSelector\nxlink\nxmlns\n",
  st! "y\ny1\ny2\nyChannelSelector\nz\nzoomAndPan\n"]

/-- names.rs:223-494: the identifiers of the variants. -/
def AttributeId.variant : AttributeId → Str
  | .AccentHeight => st! "AccentHeight"
  | .Accumulate => st! "Accumulate"
  | .Actuate => st! "Actuate"
  | .Additive => st! "Additive"
  | .AlignmentBaseline => st! "AlignmentBaseline"
  | .Alphabetic => st! "Alphabetic"
  | .Amplitude => st! "Amplitude"
  | .ArabicForm => st! "ArabicForm"
  | .Arcrole => st! "Arcrole"
  | .Ascent => st! "Ascent"
  | .AttributeName => st! "AttributeName"
  | .AttributeType => st! "AttributeType"
  | .Azimuth => st! "Azimuth"
  | .Base => st! "Base"
  | .BaseFrequency => st! "BaseFrequency"
  | .BaselineShift => st! "BaselineShift"
  | .BaseProfile => st! "BaseProfile"
  | .Bbox => st! "Bbox"
  | .Begin => st! "Begin"
  | .Bias => st! "Bias"
  | .By => st! "By"
  | .CalcMode => st! "CalcMode"
  | .CapHeight => st! "CapHeight"
  | .Class => st! "Class"
  | .Clip => st! "Clip"
  | .ClipPath => st! "ClipPath"
  | .ClipRule => st! "ClipRule"
  | .ClipPathUnits => st! "ClipPathUnits"
  | .Color => st! "Color"
  | .ColorInterpolation => st! "ColorInterpolation"
  | .ColorInterpolationFilters => st! "ColorInterpolationFilters"
  | .ColorProfile => st! "ColorProfile"
  | .ColorRendering => st! "ColorRendering"
  | .ContentScriptType => st! "ContentScriptType"
  | .ContentStyleType => st! "ContentStyleType"
  | .Cursor => st! "Cursor"
  | .Cx => st! "Cx"
  | .Cy => st! "Cy"
  | .D => st! "D"
  | .Descent => st! "Descent"
  | .DiffuseConstant => st! "DiffuseConstant"
  | .Direction => st! "Direction"
  | .Display => st! "Display"
  | .Divisor => st! "Divisor"
  | .DominantBaseline => st! "DominantBaseline"
  | .Dur => st! "Dur"
  | .Dx => st! "Dx"
  | .Dy => st! "Dy"
  | .EdgeMode => st! "EdgeMode"
  | .Elevation => st! "Elevation"
  | .EnableBackground => st! "EnableBackground"
  | .Encoding => st! "Encoding"
  | .End => st! "End"
  | .Exponent => st! "Exponent"
  | .ExternalResourcesRequired => st! "ExternalResourcesRequired"
  | .Fill => st! "Fill"
  | .FillOpacity => st! "FillOpacity"
  | .FillRule => st! "FillRule"
  | .Filter => st! "Filter"
  | .FilterRes => st! "FilterRes"
  | .FilterUnits => st! "FilterUnits"
  | .FloodColor => st! "FloodColor"
  | .FloodOpacity => st! "FloodOpacity"
  | .Font => st! "Font"
  | .FontFamily => st! "FontFamily"
  | .FontSize => st! "FontSize"
  | .FontSizeAdjust => st! "FontSizeAdjust"
  | .FontStretch => st! "FontStretch"
  | .FontStyle => st! "FontStyle"
  | .FontVariant => st! "FontVariant"
  | .FontWeight => st! "FontWeight"
  | .Format => st! "Format"
  | .From => st! "From"
  | .Fx => st! "Fx"
  | .Fy => st! "Fy"
  | .G1 => st! "G1"
  | .G2 => st! "G2"
  | .GlyphName => st! "GlyphName"
  | .GlyphOrientationHorizontal => st! "GlyphOrientationHorizontal"
  | .GlyphOrientationVertical => st! "GlyphOrientationVertical"
  | .GlyphRef => st! "GlyphRef"
  | .GradientTransform => st! "GradientTransform"
  | .GradientUnits => st! "GradientUnits"
  | .Hanging => st! "Hanging"
  | .Height => st! "Height"
  | .HorizAdvX => st! "HorizAdvX"
  | .HorizOriginX => st! "HorizOriginX"
  | .HorizOriginY => st! "HorizOriginY"
  | .Href => st! "Href"
  | .Id => st! "Id"
  | .Ideographic => st! "Ideographic"
  | .ImageRendering => st! "ImageRendering"
  | .In => st! "In"
  | .In2 => st! "In2"
  | .Intercept => st! "Intercept"
  | .K => st! "K"
  | .K1 => st! "K1"
  | .K2 => st! "K2"
  | .K3 => st! "K3"
  | .K4 => st! "K4"
  | .KernelMatrix => st! "KernelMatrix"
  | .KernelUnitLength => st! "KernelUnitLength"
  | .Kerning => st! "Kerning"
  | .KeyPoints => st! "KeyPoints"
  | .KeySplines => st! "KeySplines"
  | .KeyTimes => st! "KeyTimes"
  | .Lang => st! "Lang"
  | .LengthAdjust => st! "LengthAdjust"
  | .LetterSpacing => st! "LetterSpacing"
  | .LightingColor => st! "LightingColor"
  | .LimitingConeAngle => st! "LimitingConeAngle"
  | .LineHeight => st! "LineHeight"
  | .Local => st! "Local"
  | .Marker => st! "Marker"
  | .MarkerEnd => st! "MarkerEnd"
  | .MarkerMid => st! "MarkerMid"
  | .MarkerStart => st! "MarkerStart"
  | .MarkerHeight => st! "MarkerHeight"
  | .MarkerUnits => st! "MarkerUnits"
  | .MarkerWidth => st! "MarkerWidth"
  | .Mask => st! "Mask"
  | .MaskContentUnits => st! "MaskContentUnits"
  | .MaskUnits => st! "MaskUnits"
  | .Mathematical => st! "Mathematical"
  | .Max => st! "Max"
  | .Media => st! "Media"
  | .Method => st! "Method"
  | .Min => st! "Min"
  | .Mode => st! "Mode"
  | .Name => st! "Name"
  | .NumOctaves => st! "NumOctaves"
  | .Offset => st! "Offset"
  | .Onabort => st! "Onabort"
  | .Onactivate => st! "Onactivate"
  | .Onbegin => st! "Onbegin"
  | .Onclick => st! "Onclick"
  | .Onend => st! "Onend"
  | .Onerror => st! "Onerror"
  | .Onfocusin => st! "Onfocusin"
  | .Onfocusout => st! "Onfocusout"
  | .Onload => st! "Onload"
  | .Onmousedown => st! "Onmousedown"
  | .Onmousemove => st! "Onmousemove"
  | .Onmouseout => st! "Onmouseout"
  | .Onmouseover => st! "Onmouseover"
  | .Onmouseup => st! "Onmouseup"
  | .Onrepeat => st! "Onrepeat"
  | .Onresize => st! "Onresize"
  | .Onscroll => st! "Onscroll"
  | .Onunload => st! "Onunload"
  | .Onzoom => st! "Onzoom"
  | .Opacity => st! "Opacity"
  | .Operator => st! "Operator"
  | .Order => st! "Order"
  | .Orient => st! "Orient"
  | .Orientation => st! "Orientation"
  | .Origin => st! "Origin"
  | .Overflow => st! "Overflow"
  | .OverlinePosition => st! "OverlinePosition"
  | .OverlineThickness => st! "OverlineThickness"
  | .Panose1 => st! "Panose1"
  | .Path => st! "Path"
  | .PathLength => st! "PathLength"
  | .PatternContentUnits => st! "PatternContentUnits"
  | .PatternTransform => st! "PatternTransform"
  | .PatternUnits => st! "PatternUnits"
  | .PointerEvents => st! "PointerEvents"
  | .Points => st! "Points"
  | .PointsAtX => st! "PointsAtX"
  | .PointsAtY => st! "PointsAtY"
  | .PointsAtZ => st! "PointsAtZ"
  | .PreserveAlpha => st! "PreserveAlpha"
  | .PreserveAspectRatio => st! "PreserveAspectRatio"
  | .PrimitiveUnits => st! "PrimitiveUnits"
  | .R => st! "R"
  | .Radius => st! "Radius"
  | .RefX => st! "RefX"
  | .RefY => st! "RefY"
  | .RenderingIntent => st! "RenderingIntent"
  | .RepeatCount => st! "RepeatCount"
  | .RepeatDur => st! "RepeatDur"
  | .RequiredExtensions => st! "RequiredExtensions"
  | .RequiredFeatures => st! "RequiredFeatures"
  | .Restart => st! "Restart"
  | .Result => st! "Result"
  | .Role => st! "Role"
  | .Rotate => st! "Rotate"
  | .Rx => st! "Rx"
  | .Ry => st! "Ry"
  | .Scale => st! "Scale"
  | .Seed => st! "Seed"
  | .ShapeRendering => st! "ShapeRendering"
  | .Show => st! "Show"
  | .Slope => st! "Slope"
  | .Space => st! "Space"
  | .Spacing => st! "Spacing"
  | .SpecularConstant => st! "SpecularConstant"
  | .SpecularExponent => st! "SpecularExponent"
  | .SpreadMethod => st! "SpreadMethod"
  | .Standalone => st! "Standalone"
  | .StartOffset => st! "StartOffset"
  | .StdDeviation => st! "StdDeviation"
  | .Stemh => st! "Stemh"
  | .Stemv => st! "Stemv"
  | .StitchTiles => st! "StitchTiles"
  | .StopColor => st! "StopColor"
  | .StopOpacity => st! "StopOpacity"
  | .StrikethroughPosition => st! "StrikethroughPosition"
  | .StrikethroughThickness => st! "StrikethroughThickness"
  | .String => st! "String"
  | .Stroke => st! "Stroke"
  | .StrokeDasharray => st! "StrokeDasharray"
  | .StrokeDashoffset => st! "StrokeDashoffset"
  | .StrokeLinecap => st! "StrokeLinecap"
  | .StrokeLinejoin => st! "StrokeLinejoin"
  | .StrokeMiterlimit => st! "StrokeMiterlimit"
  | .StrokeOpacity => st! "StrokeOpacity"
  | .StrokeWidth => st! "StrokeWidth"
  | .Style => st! "Style"
  | .SurfaceScale => st! "SurfaceScale"
  | .SystemLanguage => st! "SystemLanguage"
  | .TableValues => st! "TableValues"
  | .Target => st! "Target"
  | .TargetX => st! "TargetX"
  | .TargetY => st! "TargetY"
  | .TextAnchor => st! "TextAnchor"
  | .TextDecoration => st! "TextDecoration"
  | .TextRendering => st! "TextRendering"
  | .TextLength => st! "TextLength"
  | .Title => st! "Title"
  | .To => st! "To"
  | .Transform => st! "Transform"
  | .«Type» => st! "Type"
  | .U1 => st! "U1"
  | .U2 => st! "U2"
  | .UnderlinePosition => st! "UnderlinePosition"
  | .UnderlineThickness => st! "UnderlineThickness"
  | .Unicode => st! "Unicode"
  | .UnicodeBidi => st! "UnicodeBidi"
  | .UnicodeRange => st! "UnicodeRange"
  | .UnitsPerEm => st! "UnitsPerEm"
  | .VAlphabetic => st! "VAlphabetic"
  | .VHanging => st! "VHanging"
  | .VIdeographic => st! "VIdeographic"
  | .VMathematical => st! "VMathematical"
  | .Values => st! "Values"
  | .Version => st! "Version"
  | .VertAdvY => st! "VertAdvY"
  | .VertOriginX => st! "VertOriginX"
  | .VertOriginY => st! "VertOriginY"
  | .ViewBox => st! "ViewBox"
  | .ViewTarget => st! "ViewTarget"
  | .Visibility => st! "Visibility"
  | .Width => st! "Width"
  | .Widths => st! "Widths"
  | .WordSpacing => st! "WordSpacing"
  | .WritingMode => st! "WritingMode"
  | .X => st! "X"
  | .XHeight => st! "XHeight"
  | .X1 => st! "X1"
  | .X2 => st! "X2"
  | .XChannelSelector => st! "XChannelSelector"
  | .Xlink => st! "Xlink"
  | .Xmlns => st! "Xmlns"
  | .Y => st! "Y"
  | .Y1 => st! "Y1"
  | .Y2 => st! "Y2"
  | .YChannelSelector => st! "YChannelSelector"
  | .Z => st! "Z"
  | .ZoomAndPan => st! "ZoomAndPan"

end Svgdom
