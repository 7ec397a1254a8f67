import Verif.Model.Str

/-!
# Specification: element and attribute categories

The lists of names in the documentation comments of `ElementType` and `AttributeType` (element_type.rs:16-106,
attribute_type.rs:44-56), as strings.
-/

namespace Svgdom.Doc

def referenced : List Str := [st!"altGlyphDef", st!"clipPath", st!"cursor", st!"filter", st!"linearGradient", st!"marker",
  st!"mask", st!"pattern", st!"radialGradient", st!"symbol"]
def basicShape : List Str := [st!"rect", st!"circle", st!"ellipse", st!"line", st!"polyline", st!"polygon"]
def shape : List Str := [st!"path", st!"rect", st!"circle", st!"ellipse", st!"line", st!"polyline", st!"polygon"]
def container : List Str := [st!"a", st!"defs", st!"glyph", st!"g", st!"marker", st!"mask", st!"missing-glyph", st!"pattern",
  st!"svg", st!"switch", st!"symbol"]
def textContent : List Str := [st!"altGlyph", st!"textPath", st!"text", st!"tref", st!"tspan"]
def textContentChild : List Str := [st!"altGlyph", st!"textPath", st!"tref", st!"tspan"]
def graphic : List Str := [st!"circle", st!"ellipse", st!"image", st!"line", st!"path", st!"polygon", st!"polyline", st!"rect",
  st!"text", st!"use"]
def gradient : List Str := [st!"linearGradient", st!"radialGradient"]
def paintServer : List Str := [st!"linearGradient", st!"radialGradient", st!"pattern"]
def filterPrimitive : List Str := [st!"feBlend", st!"feColorMatrix", st!"feComponentTransfer", st!"feComposite",
  st!"feConvolveMatrix", st!"feDiffuseLighting", st!"feDisplacementMap", st!"feFlood", st!"feGaussianBlur", st!"feImage",
  st!"feMerge", st!"feMorphology", st!"feOffset", st!"feSpecularLighting", st!"feTile", st!"feTurbulence"]

def fill : List Str := [st!"fill", st!"fill-opacity", st!"fill-rule"]
def stroke : List Str := [st!"stroke", st!"stroke-dasharray", st!"stroke-dashoffset", st!"stroke-linecap", st!"stroke-linejoin",
  st!"stroke-miterlimit", st!"stroke-opacity", st!"stroke-width"]

end Svgdom.Doc
