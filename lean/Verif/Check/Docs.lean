import Verif.Check.Libs

/-!
# The XML documents of tests/*.rs that `Check/Api.lean` uses

Generated by tools/gen_repo_tests.py.
-/

set_option autoImplicit false

namespace Svgdom.Check

/-- tests/domapi.rs:212, in `drain_1`. -/
def domapi_drain_1 : Xml :=
  (.element (some st!"http://www.w3.org/2000/svg") st!"svg" [] (.text st!"\n    " (.element (some st!"http://www.w3.org/2000/svg") st!"rect" [] .nil (.text st!"\n" .nil))) .nil)

/-- tests/domapi.rs:228, in `drain_2`. -/
def domapi_drain_2 : Xml :=
  (.element (some st!"http://www.w3.org/2000/svg") st!"svg" [] (.text st!"\n    " (.element (some st!"http://www.w3.org/2000/svg") st!"rect" [] .nil (.text st!"\n    " (.element (some st!"http://www.w3.org/2000/svg") st!"g" [] (.text st!"\n        " (.element (some st!"http://www.w3.org/2000/svg") st!"path" [] .nil (.text st!"\n    " .nil))) (.text st!"\n    " (.element (some st!"http://www.w3.org/2000/svg") st!"rect" [] .nil (.text st!"\n" .nil))))))) .nil)

/-- tests/domapi.rs:253, in `drain_3`. -/
def domapi_drain_3 : Xml :=
  (.element (some st!"http://www.w3.org/2000/svg") st!"svg" [] (.text st!"\n    " (.element (some st!"http://www.w3.org/2000/svg") st!"rect" [] .nil (.text st!"\n    " (.element (some st!"http://www.w3.org/2000/svg") st!"g" [] (.text st!"\n        " (.element (some st!"http://www.w3.org/2000/svg") st!"path" [] .nil (.text st!"\n    " .nil))) (.text st!"\n    " (.element (some st!"http://www.w3.org/2000/svg") st!"rect" [] .nil (.text st!"\n" .nil))))))) .nil)

/-- tests/domapi.rs:277, in `drain_4`. -/
def domapi_drain_4 : Xml :=
  (.element (some st!"http://www.w3.org/2000/svg") st!"svg" [] (.text st!"\n    " (.element (some st!"http://www.w3.org/2000/svg") st!"rect" [] .nil (.text st!"\n    " (.element (some st!"http://www.w3.org/2000/svg") st!"g" [] (.text st!"\n        " (.element (some st!"http://www.w3.org/2000/svg") st!"rect" [] .nil (.text st!"\n    " .nil))) (.text st!"\n    " (.element (some st!"http://www.w3.org/2000/svg") st!"rect" [] .nil (.text st!"\n" .nil))))))) .nil)

/-- tests/domapi.rs:300, in `deep_copy_1`. -/
def domapi_deep_copy_1 : Xml :=
  (.element (some st!"http://www.w3.org/2000/svg") st!"svg" [] (.text st!"\n    " (.element (some st!"http://www.w3.org/2000/svg") st!"g" [⟨none, st!"id", st!"g1"⟩] (.text st!"\n        " (.element (some st!"http://www.w3.org/2000/svg") st!"rect" [⟨none, st!"id", st!"rect1"⟩] .nil (.text st!"\n    " .nil))) (.text st!"\n" .nil))) .nil)

/-- tests/domapi.rs:329, in `deep_copy_2`. -/
def domapi_deep_copy_2 : Xml :=
  (.element (some st!"http://www.w3.org/2000/svg") st!"svg" [] (.text st!"\n    " (.element (some st!"http://www.w3.org/2000/svg") st!"g" [⟨none, st!"id", st!"g1"⟩] (.text st!"\n        " (.element (some st!"http://www.w3.org/2000/svg") st!"rect" [⟨none, st!"id", st!"rect1"⟩] .nil (.text st!"\n    " .nil))) (.text st!"\n" .nil))) .nil)

/-- tests/domapi.rs:366, in `deep_copy_3`. -/
def domapi_deep_copy_3 : Xml :=
  (.element (some st!"http://www.w3.org/2000/svg") st!"svg" [] (.text st!"\n    " (.element (some st!"http://www.w3.org/2000/svg") st!"linearGradient" [⟨none, st!"id", st!"lg1"⟩] .nil (.text st!"\n    " (.element (some st!"http://www.w3.org/2000/svg") st!"g" [⟨none, st!"id", st!"g1"⟩, ⟨none, st!"stroke-width", st!"5"⟩] (.text st!"\n        " (.element (some st!"http://www.w3.org/2000/svg") st!"rect" [⟨none, st!"id", st!"rect1"⟩, ⟨none, st!"fill", st!"url(#lg1)"⟩] .nil (.text st!"\n    " .nil))) (.text st!"\n" .nil))))) .nil)

/-- tests/parser.rs:54, in `parse_empty_3`. -/
def parser_parse_empty_3 : Xml :=
  (.element none st!"rect" [] .nil .nil)

/-- tests/parser.rs:66, in `parse_single_node_1`. -/
def parser_parse_single_node_1 : Xml :=
  (.element (some st!"http://www.w3.org/2000/svg") st!"svg" [] .nil .nil)

/-- tests/parser.rs:75, in `parse_comment_1`. -/
def parser_parse_comment_1 : Xml :=
  (.element (some st!"http://www.w3.org/2000/svg") st!"svg" [] .nil (.comment st!"comment" .nil))

/-- tests/parser.rs:85, in `parse_text_1`. -/
def parser_parse_text_1 : Xml :=
  (.element (some st!"http://www.w3.org/2000/svg") st!"svg" [] (.text st!"text" .nil) .nil)

/-- tests/parser.rs:94, in `parse_text_2`. -/
def parser_parse_text_2 : Xml :=
  (.element (some st!"http://www.w3.org/2000/svg") st!"svg" [] (.element (some st!"http://www.w3.org/2000/svg") st!"text" [] (.text st!"Some" (.element (some st!"http://www.w3.org/2000/svg") st!"tspan" [] (.text st!"complex" .nil) (.text st!"text" .nil))) .nil) .nil)

/-- tests/parser.rs:229, in `parse_paint_1`. -/
def parser_parse_paint_1 : Xml :=
  (.element (some st!"http://www.w3.org/2000/svg") st!"svg" [] (.text st!"\n    " (.element (some st!"http://www.w3.org/2000/svg") st!"radialGradient" [⟨none, st!"id", st!"rg1"⟩] .nil (.text st!"\n    " (.element (some st!"http://www.w3.org/2000/svg") st!"rect" [⟨none, st!"fill", st!"url(#rg1)"⟩] .nil (.text st!"\n" .nil))))) .nil)

/-- tests/parser.rs:247, in `parse_paint_2`. -/
def parser_parse_paint_2 : Xml :=
  (.element (some st!"http://www.w3.org/2000/svg") st!"svg" [] (.text st!"\n    " (.element (some st!"http://www.w3.org/2000/svg") st!"rect" [⟨none, st!"fill", st!"url(#rg1)"⟩] .nil (.text st!"\n    " (.element (some st!"http://www.w3.org/2000/svg") st!"radialGradient" [⟨none, st!"id", st!"rg1"⟩] .nil (.text st!"\n" .nil))))) .nil)

/-- tests/parser.rs:321, in `parse_iri_1`. -/
def parser_parse_iri_1 : Xml :=
  (.element (some st!"http://www.w3.org/2000/svg") st!"svg" [] (.text st!"\n    " (.element (some st!"http://www.w3.org/2000/svg") st!"rect" [⟨none, st!"id", st!"r1"⟩] .nil (.text st!"\n    " (.element (some st!"http://www.w3.org/2000/svg") st!"use" [⟨(some st!"http://www.w3.org/1999/xlink"), st!"href", st!"#r1"⟩] .nil (.text st!"\n" .nil))))) .nil)

/-- tests/parser.rs:338, in `parse_iri_2`. -/
def parser_parse_iri_2 : Xml :=
  (.element (some st!"http://www.w3.org/2000/svg") st!"svg" [] (.text st!"\n    " (.element (some st!"http://www.w3.org/2000/svg") st!"use" [⟨(some st!"http://www.w3.org/1999/xlink"), st!"href", st!"#r1"⟩] .nil (.text st!"\n" .nil))) .nil)

/-- tests/parser.rs:352, in `parse_func_iri_1`. -/
def parser_parse_func_iri_1 : Xml :=
  (.element (some st!"http://www.w3.org/2000/svg") st!"svg" [] (.text st!"\n    " (.element (some st!"http://www.w3.org/2000/svg") st!"filter" [⟨none, st!"id", st!"f"⟩] .nil (.text st!"\n    " (.element (some st!"http://www.w3.org/2000/svg") st!"rect" [⟨none, st!"filter", st!"url(#f)"⟩] .nil (.text st!"\n" .nil))))) .nil)

/-- tests/parser.rs:369, in `parse_func_iri_2`. -/
def parser_parse_func_iri_2 : Xml :=
  (.element (some st!"http://www.w3.org/2000/svg") st!"svg" [] (.text st!"\n    " (.element (some st!"http://www.w3.org/2000/svg") st!"rect" [⟨none, st!"filter", st!"url(#f)"⟩] .nil (.text st!"\n" .nil))) .nil)

/-- tests/text.rs:35, in `text_content_1`. -/
def text_text_content_1 : Xml :=
  (.element (some st!"http://www.w3.org/2000/svg") st!"svg" [] (.text st!"\n    " (.element (some st!"http://www.w3.org/2000/svg") st!"text" [] (.text st!"\n        A " (.element (some st!"http://www.w3.org/2000/svg") st!"tspan" [] (.text st!"\n            " (.element (some st!"http://www.w3.org/2000/svg") st!"tspan" [] (.text st!"\n                link\n                inside tspan\n            " .nil) (.text st!" for testing\n        " .nil))) (.text st!"\n    " .nil))) (.text st!"\n" .nil))) .nil)

/-- tests/text.rs:54, in `text_content_2`. -/
def text_text_content_2 : Xml :=
  (.element (some st!"http://www.w3.org/2000/svg") st!"svg" [] (.text st!"\n    " (.element (some st!"http://www.w3.org/2000/svg") st!"text" [] (.text st!"\n        " (.element (some st!"http://www.w3.org/2000/svg") st!"tspan" [] (.text st!"Text1" .nil) (.text st!"\n        " (.element (some st!"http://www.w3.org/2000/svg") st!"tspan" [] (.text st!"Text2" .nil) (.text st!"\n        " (.element (some st!"http://www.w3.org/2000/svg") st!"tspan" [] (.text st!"Text3" .nil) (.text st!"\n    " .nil))))))) (.text st!"\n" .nil))) .nil)

/-- tests/text.rs:70, in `text_content_3`. -/
def text_text_content_3 : Xml :=
  (.element (some st!"http://www.w3.org/2000/svg") st!"svg" [] (.text st!"\n    " (.element (some st!"http://www.w3.org/2000/svg") st!"text" [] (.text st!"\n      Not\n\n      " (.element (some st!"http://www.w3.org/2000/svg") st!"tspan" [] (.text st!"\n        all characters\n\n        " (.element (some st!"http://www.w3.org/2000/svg") st!"tspan" [] (.text st!"\n          in\n\n          " (.element (some st!"http://www.w3.org/2000/svg") st!"tspan" [] (.text st!"\n            the\n          " .nil) (.text st!"\n        " .nil))) (.text st!"\n\n        " (.element (some st!"http://www.w3.org/2000/svg") st!"tspan" [] (.text st!"\n          text\n        " .nil) (.text st!"\n\n        have a\n      " .nil))))) (.text st!"\n\n      " (.element (some st!"http://www.w3.org/2000/svg") st!"tspan" [] (.text st!"\n        specified\n      " .nil) (.text st!"\n\n      rotation\n    " .nil))))) (.text st!"\n" .nil))) .nil)

/-- tests/text.rs:108, in `text_content_4`. -/
def text_text_content_4 : Xml :=
  (.element (some st!"http://www.w3.org/2000/svg") st!"svg" [] (.text st!"\n    " (.element (some st!"http://www.w3.org/2000/svg") st!"text" [] (.text st!"\n        Text\n        " (.element (some st!"http://www.w3.org/2000/svg") st!"tspan" [⟨(some st!"http://www.w3.org/XML/1998/namespace"), st!"space", st!"preserve"⟩] (.text st!"  Text  " .nil) (.text st!"\n        Text\n    " .nil))) (.text st!"\n" .nil))) .nil)

/-- tests/text.rs:124, in `text_content_5`. -/
def text_text_content_5 : Xml :=
  (.element (some st!"http://www.w3.org/2000/svg") st!"svg" [] (.text st!"\n    " (.element (some st!"http://www.w3.org/2000/svg") st!"text" [] (.text st!" 'Text' " .nil) (.text st!"\n" .nil))) .nil)

/-- tests/writer.rs:233, in `indent_1`. -/
def writer_indent_1 : Xml :=
  (.element (some st!"http://www.w3.org/2000/svg") st!"svg" [] (.text st!"\n    " (.element (some st!"http://www.w3.org/2000/svg") st!"g" [] (.text st!"\n        " (.element (some st!"http://www.w3.org/2000/svg") st!"rect" [] .nil (.text st!"\n    " .nil))) (.text st!"\n" .nil))) .nil)

/-- tests/writer.rs:252, in `indent_2`. -/
def writer_indent_2 : Xml :=
  (.element (some st!"http://www.w3.org/2000/svg") st!"svg" [] (.text st!"\n    " (.element (some st!"http://www.w3.org/2000/svg") st!"g" [] (.text st!"\n        " (.element (some st!"http://www.w3.org/2000/svg") st!"rect" [] .nil (.text st!"\n    " .nil))) (.text st!"\n" .nil))) .nil)

/-- tests/writer.rs:274, in `indent_3`. -/
def writer_indent_3 : Xml :=
  (.element (some st!"http://www.w3.org/2000/svg") st!"svg" [] (.text st!"\n    " (.element (some st!"http://www.w3.org/2000/svg") st!"g" [] (.text st!"\n        " (.element (some st!"http://www.w3.org/2000/svg") st!"rect" [] .nil (.text st!"\n    " .nil))) (.text st!"\n" .nil))) .nil)

/-- tests/writer.rs:296, in `indent_4`. -/
def writer_indent_4 : Xml :=
  (.element (some st!"http://www.w3.org/2000/svg") st!"svg" [] (.text st!"\n    " (.element (some st!"http://www.w3.org/2000/svg") st!"g" [] (.text st!"\n        " (.element (some st!"http://www.w3.org/2000/svg") st!"rect" [] .nil (.text st!"\n    " .nil))) (.text st!"\n" .nil))) .nil)

/-- tests/writer.rs:313, in `indent_5`. -/
def writer_indent_5 : Xml :=
  (.element (some st!"http://www.w3.org/2000/svg") st!"svg" [] (.text st!"\n    " (.element (some st!"http://www.w3.org/2000/svg") st!"g" [] (.text st!"\n        " (.element (some st!"http://www.w3.org/2000/svg") st!"rect" [] .nil (.text st!"\n    " .nil))) (.text st!"\n" .nil))) .nil)

/-- tests/writer.rs:335, in `attrs_indent_1`. -/
def writer_attrs_indent_1 : Xml :=
  (.element (some st!"http://www.w3.org/2000/svg") st!"svg" [⟨none, st!"id", st!"svg1"⟩, ⟨none, st!"width", st!"100"⟩, ⟨none, st!"height", st!"100"⟩] (.text st!"\n    " (.element (some st!"http://www.w3.org/2000/svg") st!"g" [⟨none, st!"fill", st!"red"⟩, ⟨none, st!"stroke", st!"blue"⟩] (.text st!"\n        " (.element (some st!"http://www.w3.org/2000/svg") st!"rect" [⟨none, st!"id", st!"rect1"⟩, ⟨none, st!"stroke-width", st!"2"⟩] .nil (.text st!"\n    " .nil))) (.text st!"\n" .nil))) .nil)

/-- tests/writer.rs:365, in `single_quote_1`. -/
def writer_single_quote_1 : Xml :=
  (.element (some st!"http://www.w3.org/2000/svg") st!"svg" [⟨none, st!"id", st!"svg1"⟩] .nil .nil)

/-- tests/writer.rs:388, in `escape_3`. -/
def writer_escape_3 : Xml :=
  (.element (some st!"http://www.w3.org/2000/svg") st!"svg" [⟨none, st!"font-family", st!"'Noto Sans'"⟩] .nil .nil)

/-- tests/writer.rs:405, in `escape_4`. -/
def writer_escape_4 : Xml :=
  (.element (some st!"http://www.w3.org/2000/svg") st!"svg" [⟨none, st!"font-family", st!"\"Noto Sans\""⟩] .nil .nil)

end Svgdom.Check
