import Verif.Check.Libs

/-!
# The `test_resave!` tests of the repository, run on the model

Generated by tools/gen_repo_tests.py. These are tests of the model, not proofs of properties: they compare what the model does with what
the authors of the code expect of it, for the documents of tests/*.rs. The external crates are replaced by `Check/Libs.lean`.
-/

set_option autoImplicit false

namespace Svgdom.Check

/-- tests/parser.rs:123 `parse_non_svg_1`. -/
example : resave { single := true } (.element (some st!"http://www.w3.org/2000/svg") st!"svg" [] (.text st!"\n    " (.element (some st!"http://www.w3.org/2000/svg") st!"qwe" [] .nil (.text st!"\n" .nil))) .nil) =
    some st!"<svg xmlns='http://www.w3.org/2000/svg'/>\n" := by decide +kernel

/-- tests/parser.rs:130 `parse_non_svg_2`. -/
example : resave { single := true } (.element (some st!"http://www.w3.org/2000/svg") st!"svg" [] (.text st!"\n    " (.element (some st!"http://www.w3.org/2000/svg") st!"rect" [⟨none, st!"qwe", st!"qwe"⟩] .nil (.text st!"\n" .nil))) .nil) =
    some st!"<svg xmlns='http://www.w3.org/2000/svg'>\n    <rect/>\n</svg>\n" := by decide +kernel

/-- tests/parser.rs:140 `parse_style_1`. -/
example : resave { single := true } (.element (some st!"http://www.w3.org/2000/svg") st!"svg" [] (.text st!"\n    " (.element (some st!"http://www.w3.org/2000/svg") st!"g" [⟨none, st!"style", st!"fill:green"⟩, ⟨none, st!"fill", st!"red"⟩] .nil (.text st!"\n" .nil))) .nil) =
    some st!"<svg xmlns='http://www.w3.org/2000/svg'>\n    <g fill='#008000'/>\n</svg>\n" := by decide +kernel

/-- tests/parser.rs:150 `parse_style_2`. -/
example : resave { single := true } (.element (some st!"http://www.w3.org/2000/svg") st!"svg" [] (.text st!"\n    " (.element (some st!"http://www.w3.org/2000/svg") st!"g" [⟨none, st!"style", st!"fill:none; color:cyan; stroke-width:4.00"⟩] .nil (.text st!"\n" .nil))) .nil) =
    some st!"<svg xmlns='http://www.w3.org/2000/svg'>\n    <g color='#00ffff' fill='none' stroke-width='4'/>\n</svg>\n" := by decide +kernel

/-- tests/parser.rs:160 `parse_style_3`. -/
example : resave { single := true } (.element (some st!"http://www.w3.org/2000/svg") st!"svg" [] (.text st!"\n    " (.element (some st!"http://www.w3.org/2000/svg") st!"text" [⟨none, st!"style", st!"font-size:24px;font-style:normal;font-variant:normal;font-weight:normal;font-stretch:normal;writing-mode:lr-tb;text-anchor:middle;font-family:'Arial Bold'"⟩] .nil (.text st!"\n" .nil))) .nil) =
    some st!"<svg xmlns='http://www.w3.org/2000/svg'>\n    <text font-family='&apos;Arial Bold&apos;' font-size='24px' font-stretch='normal' font-style='normal' font-variant='normal' font-weight='normal' text-anchor='middle' writing-mode='lr-tb'/>\n</svg>\n" := by decide +kernel

/-- tests/parser.rs:175 `parse_style_4`. -/
example : resave { single := true } (.element (some st!"http://www.w3.org/2000/svg") st!"svg" [] (.text st!"\n    " (.element (some st!"http://www.w3.org/2000/svg") st!"text" [⟨none, st!"style", st!"font-size:24px; /* comment */ font-style:normal;"⟩] .nil (.text st!"\n" .nil))) .nil) =
    some st!"<svg xmlns='http://www.w3.org/2000/svg'>\n    <text font-size='24px' font-style='normal'/>\n</svg>\n" := by decide +kernel

/-- tests/parser.rs:186 `parse_style_5`. -/
example : resave { single := true } (.element (some st!"http://www.w3.org/2000/svg") st!"svg" [] (.text st!"\n    " (.element (some st!"http://www.w3.org/2000/svg") st!"text" [⟨none, st!"style", st!"font-size:24px;-font-style:normal;font-stretch:normal;"⟩] .nil (.text st!"\n" .nil))) .nil) =
    some st!"<svg xmlns='http://www.w3.org/2000/svg'>\n    <text font-size='24px' font-stretch='normal'/>\n</svg>\n" := by decide +kernel

/-- tests/parser.rs:196 `parse_style_6`. -/
example : resave { single := true } (.element (some st!"http://www.w3.org/2000/svg") st!"svg" [] (.text st!"\n    " (.element (some st!"http://www.w3.org/2000/svg") st!"g" [⟨none, st!"style", st!"qwe:none; color:cyan;"⟩] .nil (.text st!"\n" .nil))) .nil) =
    some st!"<svg xmlns='http://www.w3.org/2000/svg'>\n    <g color='#00ffff'/>\n</svg>\n" := by decide +kernel

/-- tests/parser.rs:206 `parse_style_7`. -/
example : resave { single := true } (.element (some st!"http://www.w3.org/2000/svg") st!"svg" [] (.text st!"\n    " (.element (some st!"http://www.w3.org/2000/svg") st!"g" [⟨none, st!"style", st!"-vendor:red"⟩] .nil (.text st!"\n" .nil))) .nil) =
    some st!"<svg xmlns='http://www.w3.org/2000/svg'>\n    <g/>\n</svg>\n" := by decide +kernel

/-- tests/parser.rs:217 `parse_style_8`. -/
example : resave { single := true } (.element (some st!"http://www.w3.org/2000/svg") st!"svg" [] (.text st!"\n    " (.element (some st!"http://www.w3.org/2000/svg") st!"g" [⟨none, st!"style", st!"height:100;transform:scale(2)"⟩] .nil (.text st!"\n" .nil))) .nil) =
    some st!"<svg xmlns='http://www.w3.org/2000/svg'>\n    <g transform='matrix(2 0 0 2 0 0)'/>\n</svg>\n" := by decide +kernel

/-- tests/parser.rs:261 `parse_paint_3`. -/
example : resave { single := true } (.element (some st!"http://www.w3.org/2000/svg") st!"svg" [] (.text st!"\n    " (.element (some st!"http://www.w3.org/2000/svg") st!"radialGradient" [⟨none, st!"id", st!"0-5"⟩] .nil (.text st!"\n    " (.element (some st!"http://www.w3.org/2000/svg") st!"rect" [⟨none, st!"fill", st!"url(#0-5)"⟩] .nil (.text st!"\n" .nil))))) .nil) =
    some st!"<svg xmlns='http://www.w3.org/2000/svg'>\n    <radialGradient id='0-5'/>\n    <rect fill='url(#0-5)'/>\n</svg>\n" := by decide +kernel

/-- tests/parser.rs:272 `parse_paint_4`. -/
example : resave { single := true } (.element (some st!"http://www.w3.org/2000/svg") st!"svg" [] (.text st!"\n    " (.element (some st!"http://www.w3.org/2000/svg") st!"rect" [⟨none, st!"fill", st!"url(#lg1) none"⟩] .nil (.text st!"\n" .nil))) .nil) =
    some st!"<svg xmlns='http://www.w3.org/2000/svg'>\n    <rect fill='none'/>\n</svg>\n" := by decide +kernel

/-- tests/parser.rs:281 `parse_paint_5`. -/
example : resave { single := true } (.element (some st!"http://www.w3.org/2000/svg") st!"svg" [] (.text st!"\n    " (.element (some st!"http://www.w3.org/2000/svg") st!"rect" [⟨none, st!"fill", st!"url(#lg1) red"⟩] .nil (.text st!"\n" .nil))) .nil) =
    some st!"<svg xmlns='http://www.w3.org/2000/svg'>\n    <rect fill='#ff0000'/>\n</svg>\n" := by decide +kernel

/-- tests/parser.rs:290 `parse_paint_6`. -/
example : resave { single := true } (.element (some st!"http://www.w3.org/2000/svg") st!"svg" [] (.text st!"\n    " (.element (some st!"http://www.w3.org/2000/svg") st!"rect" [⟨none, st!"fill", st!"url(#lg1) currentColor"⟩] .nil (.text st!"\n" .nil))) .nil) =
    some st!"<svg xmlns='http://www.w3.org/2000/svg'>\n    <rect fill='currentColor'/>\n</svg>\n" := by decide +kernel

/-- tests/parser.rs:299 `parse_paint_7`. -/
example : resave { single := true } (.element (some st!"http://www.w3.org/2000/svg") st!"svg" [] (.text st!"\n    " (.element (some st!"http://www.w3.org/2000/svg") st!"linearGradient" [⟨none, st!"id", st!"lg1"⟩] .nil (.text st!"\n    " (.element (some st!"http://www.w3.org/2000/svg") st!"rect" [⟨none, st!"fill", st!"url(#lg1) none"⟩] .nil (.text st!"\n" .nil))))) .nil) =
    some st!"<svg xmlns='http://www.w3.org/2000/svg'>\n    <linearGradient id='lg1'/>\n    <rect fill='url(#lg1) none'/>\n</svg>\n" := by decide +kernel

/-- tests/parser.rs:310 `parse_invalid_path`. -/
example : resave { single := true } (.element (some st!"http://www.w3.org/2000/svg") st!"svg" [] (.text st!"\n    " (.element (some st!"http://www.w3.org/2000/svg") st!"path" [⟨none, st!"d", st!"M 10 20 L 30 40 L 50"⟩] .nil (.text st!"\n" .nil))) .nil) =
    some st!"<svg xmlns='http://www.w3.org/2000/svg'>\n    <path d='M 10 20 L 30 40'/>\n</svg>\n" := by decide +kernel

/-- tests/parser.rs:382 `parse_empty_attribute_1`. -/
example : resave { single := true } (.element (some st!"http://www.w3.org/2000/svg") st!"svg" [] (.text st!"\n    " (.element (some st!"http://www.w3.org/2000/svg") st!"rect" [⟨none, st!"stroke-dasharray", st!""⟩] .nil (.text st!"\n" .nil))) .nil) =
    some st!"<svg xmlns='http://www.w3.org/2000/svg'>\n    <rect/>\n</svg>\n" := by decide +kernel

/-- tests/parser.rs:392 `parse_empty_attribute_2`. -/
example : resave { single := true } (.element (some st!"http://www.w3.org/2000/svg") st!"svg" [] (.text st!"\n    " (.element (some st!"http://www.w3.org/2000/svg") st!"rect" [⟨none, st!"stdDeviation", st!""⟩] .nil (.text st!"\n" .nil))) .nil) =
    some st!"<svg xmlns='http://www.w3.org/2000/svg'>\n    <rect/>\n</svg>\n" := by decide +kernel

/-- tests/parser.rs:402 `parse_empty_attribute_3`. -/
example : resave { single := true } (.element (some st!"http://www.w3.org/2000/svg") st!"svg" [] (.text st!"\n    " (.element (some st!"http://www.w3.org/2000/svg") st!"rect" [⟨none, st!"transform", st!""⟩] .nil (.text st!"\n" .nil))) .nil) =
    some st!"<svg xmlns='http://www.w3.org/2000/svg'>\n    <rect/>\n</svg>\n" := by decide +kernel

/-- tests/parser.rs:411 `parse_viewbox_1`. -/
example : resave { single := true } (.element (some st!"http://www.w3.org/2000/svg") st!"svg" [⟨none, st!"viewBox", st!"10 20 30 40"⟩] .nil .nil) =
    some st!"<svg xmlns='http://www.w3.org/2000/svg' viewBox='10 20 30 40'/>\n" := by decide +kernel

/-- tests/parser.rs:416 `crosslink_1`. -/
example : resave { single := true } (.element (some st!"http://www.w3.org/2000/svg") st!"svg" [] (.text st!"\n    " (.element (some st!"http://www.w3.org/2000/svg") st!"linearGradient" [⟨none, st!"id", st!"lg1"⟩, ⟨(some st!"http://www.w3.org/1999/xlink"), st!"href", st!"#lg2"⟩] .nil (.text st!"\n    " (.element (some st!"http://www.w3.org/2000/svg") st!"linearGradient" [⟨none, st!"id", st!"lg2"⟩, ⟨(some st!"http://www.w3.org/1999/xlink"), st!"href", st!"#lg1"⟩] .nil (.text st!"\n" .nil))))) .nil) =
    some st!"<svg xmlns='http://www.w3.org/2000/svg' xmlns:xlink='http://www.w3.org/1999/xlink'>\n    <linearGradient id='lg1' xlink:href='#lg2'/>\n    <linearGradient id='lg2'/>\n</svg>\n" := by decide +kernel

/-- tests/parser.rs:427 `crosslink_2`. -/
example : resave { single := true } (.element (some st!"http://www.w3.org/2000/svg") st!"svg" [] (.text st!"\n    " (.element (some st!"http://www.w3.org/2000/svg") st!"linearGradient" [⟨none, st!"id", st!"lg1"⟩, ⟨(some st!"http://www.w3.org/1999/xlink"), st!"href", st!"#lg1"⟩] .nil (.text st!"\n" .nil))) .nil) =
    some st!"<svg xmlns='http://www.w3.org/2000/svg'>\n    <linearGradient id='lg1'/>\n</svg>\n" := by decide +kernel

/-- tests/parser.rs:437 `crosslink_3`. -/
example : resave { single := true } (.element (some st!"http://www.w3.org/2000/svg") st!"svg" [] (.text st!"\n    " (.element (some st!"http://www.w3.org/2000/svg") st!"linearGradient" [⟨none, st!"id", st!"lg1"⟩, ⟨(some st!"http://www.w3.org/1999/xlink"), st!"href", st!"#lg2"⟩] .nil (.text st!"\n    " (.element (some st!"http://www.w3.org/2000/svg") st!"linearGradient" [⟨none, st!"id", st!"lg2"⟩, ⟨(some st!"http://www.w3.org/1999/xlink"), st!"href", st!"#lg3"⟩] .nil (.text st!"\n    " (.element (some st!"http://www.w3.org/2000/svg") st!"linearGradient" [⟨none, st!"id", st!"lg3"⟩, ⟨(some st!"http://www.w3.org/1999/xlink"), st!"href", st!"#lg1"⟩] .nil (.text st!"\n" .nil))))))) .nil) =
    some st!"<svg xmlns='http://www.w3.org/2000/svg' xmlns:xlink='http://www.w3.org/1999/xlink'>\n    <linearGradient id='lg1' xlink:href='#lg2'/>\n    <linearGradient id='lg2' xlink:href='#lg3'/>\n    <linearGradient id='lg3' xlink:href='#lg1'/>\n</svg>\n" := by decide +kernel

/-- tests/css.rs:24 `parse_css_1`. -/
example : resave { single := true } (.element (some st!"http://www.w3.org/2000/svg") st!"svg" [] (.text st!"\n    " (.element (some st!"http://www.w3.org/2000/svg") st!"style" [⟨none, st!"type", st!"text/css"⟩] (.text st!"\n        \n            .fil1 {fill:#00913f}\n            .str1{stroke:#ffcc00;stroke-width:2}\n            .str2  {stroke-linejoin:round;}\n        \n    " .nil) (.text st!"\n    " (.element (some st!"http://www.w3.org/2000/svg") st!"g" [⟨none, st!"class", st!"fil1"⟩] .nil (.text st!"\n    " (.element (some st!"http://www.w3.org/2000/svg") st!"g" [⟨none, st!"class", st!"str1 str2"⟩] .nil (.text st!"\n" .nil))))))) .nil) =
    some st!"<svg xmlns='http://www.w3.org/2000/svg'>\n    <g fill='#00913f'/>\n    <g stroke='#ffcc00' stroke-linejoin='round' stroke-width='2'/>\n</svg>\n" := by decide +kernel

/-- tests/css.rs:44 `parse_css_2`. -/
example : resave { single := true } (.element (some st!"http://www.w3.org/2000/svg") st!"svg" [] (.text st!"\n    " (.element (some st!"http://www.w3.org/2000/svg") st!"g" [⟨none, st!"class", st!"fil1"⟩] .nil (.text st!"\n    " (.element (some st!"http://www.w3.org/2000/svg") st!"style" [⟨none, st!"type", st!"text/css"⟩] (.text st!"\n         .fil1 {fill:#00913f} \n    " .nil) (.text st!"\n" .nil))))) .nil) =
    some st!"<svg xmlns='http://www.w3.org/2000/svg'>\n    <g fill='#00913f'/>\n</svg>\n" := by decide +kernel

/-- tests/css.rs:57 `parse_css_4`. -/
example : resave { single := true } (.element (some st!"http://www.w3.org/2000/svg") st!"svg" [] (.text st!"\n    " (.element (some st!"http://www.w3.org/2000/svg") st!"style" [⟨none, st!"type", st!"text/css"⟩] (.text st!"\n    \n        rect {fill:red;}\n    \n    " .nil) (.text st!"\n    " (.element (some st!"http://www.w3.org/2000/svg") st!"rect" [] .nil (.text st!"\n    " (.element (some st!"http://www.w3.org/2000/svg") st!"rect" [] .nil (.text st!"\n" .nil))))))) .nil) =
    some st!"<svg xmlns='http://www.w3.org/2000/svg'>\n    <rect fill='#ff0000'/>\n    <rect fill='#ff0000'/>\n</svg>\n" := by decide +kernel

/-- tests/css.rs:75 `parse_css_5`. -/
example : resave { single := true } (.element (some st!"http://www.w3.org/2000/svg") st!"svg" [] (.text st!"\n    " (.element (some st!"http://www.w3.org/2000/svg") st!"style" [⟨none, st!"type", st!"text/css"⟩] (.text st!"\n    " .nil) (.text st!"\n" .nil))) .nil) =
    some st!"<svg xmlns='http://www.w3.org/2000/svg'/>\n" := by decide +kernel

/-- tests/css.rs:85 `parse_css_6`. -/
example : resave { single := true } (.element (some st!"http://www.w3.org/2000/svg") st!"svg" [] (.text st!"\n    " (.element (some st!"http://www.w3.org/2000/svg") st!"style" [⟨none, st!"type", st!"text/css"⟩] (.text st!"\n    \n        /*\n         * Below are Cascading Style Sheet (CSS) definitions in use in this file,\n         * which allow easily changing how elements are displayed.\n         *\n         */\n        .circle\n        {\n          opacity:0;\n          fill:#b9b9b9;\n          fill-opacity:1;\n        }\n        /*\n         * Comment\n         */\n    \n    " .nil) (.text st!"\n    " (.element (some st!"http://www.w3.org/2000/svg") st!"g" [⟨none, st!"class", st!"circle"⟩] .nil (.text st!"\n" .nil))))) .nil) =
    some st!"<svg xmlns='http://www.w3.org/2000/svg'>\n    <g fill='#b9b9b9' fill-opacity='1' opacity='0'/>\n</svg>\n" := by decide +kernel

/-- tests/css.rs:113 `parse_css_7`. -/
example : resave { single := true } (.element (some st!"http://www.w3.org/2000/svg") st!"svg" [] (.text st!"\n    " (.element (some st!"http://www.w3.org/2000/svg") st!"style" [⟨none, st!"type", st!"text/css"⟩] (.text st!"\n    \n        .fil1 {fill:url(#lg1)}\n    \n    " .nil) (.text st!"\n    " (.element (some st!"http://www.w3.org/2000/svg") st!"radialGradient" [⟨none, st!"id", st!"lg1"⟩] .nil (.text st!"\n    " (.element (some st!"http://www.w3.org/2000/svg") st!"rect" [⟨none, st!"class", st!"fil1"⟩] .nil (.text st!"\n" .nil))))))) .nil) =
    some st!"<svg xmlns='http://www.w3.org/2000/svg'>\n    <radialGradient id='lg1'/>\n    <rect fill='url(#lg1)'/>\n</svg>\n" := by decide +kernel

/-- tests/css.rs:130 `parse_css_8`. -/
example : resave { single := true } (.element (some st!"http://www.w3.org/2000/svg") st!"svg" [] (.text st!"\n    " (.element (some st!"http://www.w3.org/2000/svg") st!"style" [⟨none, st!"type", st!"text/css"⟩] (.text st!"\n    \n        .fil1 {fill:blue}\n    \n    " .nil) (.text st!"\n    " (.element (some st!"http://www.w3.org/2000/svg") st!"g" [⟨none, st!"fill", st!"red"⟩, ⟨none, st!"style", st!"fill:green"⟩, ⟨none, st!"class", st!"fil1"⟩] .nil (.text st!"\n" .nil))))) .nil) =
    some st!"<svg xmlns='http://www.w3.org/2000/svg'>\n    <g fill='#008000'/>\n</svg>\n" := by decide +kernel

/-- tests/css.rs:145 `parse_css_9`. -/
example : resave { single := true } (.element (some st!"http://www.w3.org/2000/svg") st!"svg" [] (.text st!"\n    " (.element (some st!"http://www.w3.org/2000/svg") st!"style" [⟨none, st!"type", st!"text/css"⟩] (.text st!"\n    \n        .fil1 {fill:blue}\n    \n    " .nil) (.text st!"\n    " (.element (some st!"http://www.w3.org/2000/svg") st!"g" [⟨none, st!"fill", st!"red"⟩, ⟨none, st!"class", st!"fil1"⟩] .nil (.text st!"\n" .nil))))) .nil) =
    some st!"<svg xmlns='http://www.w3.org/2000/svg'>\n    <g fill='#0000ff'/>\n</svg>\n" := by decide +kernel

/-- tests/css.rs:160 `parse_css_10`. -/
example : resave { single := true } (.element (some st!"http://www.w3.org/2000/svg") st!"svg" [] (.text st!"\n    " (.element (some st!"http://www.w3.org/2000/svg") st!"style" [⟨none, st!"type", st!"text/css"⟩] (.text st!"\n        .fil1 {fill:blue}\n    " .nil) (.text st!"\n    " (.element (some st!"http://www.w3.org/2000/svg") st!"g" [⟨none, st!"fill", st!"red"⟩, ⟨none, st!"class", st!"fil1"⟩] .nil (.text st!"\n" .nil))))) .nil) =
    some st!"<svg xmlns='http://www.w3.org/2000/svg'>\n    <g fill='#0000ff'/>\n</svg>\n" := by decide +kernel

/-- tests/css.rs:172 `parse_css_11`. -/
example : resave { single := true } (.element (some st!"http://www.w3.org/2000/svg") st!"svg" [] (.text st!"\n    " (.element (some st!"http://www.w3.org/2000/svg") st!"style" [⟨none, st!"type", st!"text/css"⟩] (.text st!"\n        @import url('../some.css');\n    " .nil) (.text st!"\n" .nil))) .nil) =
    some st!"<svg xmlns='http://www.w3.org/2000/svg'/>\n" := by decide +kernel

/-- tests/css.rs:181 `parse_css_12`. -/
example : resave { single := true } (.element (some st!"http://www.w3.org/2000/svg") st!"svg" [] (.text st!"\n    " (.element (some st!"http://www.w3.org/2000/svg") st!"style" [⟨none, st!"type", st!"text/css"⟩] (.text st!"\n        #c { fill: red }\n        \n    " .nil) (.text st!"\n    " (.element (some st!"http://www.w3.org/2000/svg") st!"g" [⟨none, st!"id", st!"c"⟩] .nil (.text st!"\n" .nil))))) .nil) =
    some st!"<svg xmlns='http://www.w3.org/2000/svg'>\n    <g id='c' fill='#ff0000'/>\n</svg>\n" := by decide +kernel

/-- tests/css.rs:194 `parse_css_14`. -/
example : resave { single := true } (.element (some st!"http://www.w3.org/2000/svg") st!"svg" [] (.text st!"\n    " (.element (some st!"http://www.w3.org/2000/svg") st!"style" [⟨none, st!"type", st!"text/css"⟩] (.text st!"\n        * { fill: red }\n        \n    " .nil) (.text st!"\n    " (.element (some st!"http://www.w3.org/2000/svg") st!"g" [] (.text st!"\n        " (.element (some st!"http://www.w3.org/2000/svg") st!"rect" [] .nil (.text st!"\n    " .nil))) (.text st!"\n    " (.element (some st!"http://www.w3.org/2000/svg") st!"path" [] .nil (.text st!"\n" .nil))))))) .nil) =
    some st!"<svg xmlns='http://www.w3.org/2000/svg' fill='#ff0000'>\n    <g fill='#ff0000'>\n        <rect fill='#ff0000'/>\n    </g>\n    <path fill='#ff0000'/>\n</svg>\n" := by decide +kernel

/-- tests/css.rs:213 `parse_css_15`. -/
example : resave { single := true } (.element (some st!"http://www.w3.org/2000/svg") st!"svg" [] (.text st!"\n    " (.element (some st!"http://www.w3.org/2000/svg") st!"style" [⟨none, st!"type", st!"text/css"⟩] (.text st!"\n        g > rect { fill: green}\n        \n    " .nil) (.text st!"\n    " (.element (some st!"http://www.w3.org/2000/svg") st!"g" [] (.text st!"\n        " (.element (some st!"http://www.w3.org/2000/svg") st!"rect" [] .nil (.text st!"\n    " .nil))) (.text st!"\n" .nil))))) .nil) =
    some st!"<svg xmlns='http://www.w3.org/2000/svg'>\n    <g>\n        <rect fill='#008000'/>\n    </g>\n</svg>\n" := by decide +kernel

/-- tests/css.rs:230 `parse_css_16`. -/
example : resave { single := true } (.element (some st!"http://www.w3.org/2000/svg") st!"svg" [] (.text st!"\n    " (.element (some st!"http://www.w3.org/2000/svg") st!"style" [⟨none, st!"type", st!"text/css"⟩] (.text st!"\n        g rect { fill: green}\n        \n    " .nil) (.text st!"\n    " (.element (some st!"http://www.w3.org/2000/svg") st!"g" [] (.text st!"\n        " (.element (some st!"http://www.w3.org/2000/svg") st!"rect" [] .nil (.text st!"\n    " .nil))) (.text st!"\n" .nil))))) .nil) =
    some st!"<svg xmlns='http://www.w3.org/2000/svg'>\n    <g>\n        <rect fill='#008000'/>\n    </g>\n</svg>\n" := by decide +kernel

/-- tests/css.rs:248 `parse_css_17`. -/
example : resave { single := true } (.element (some st!"http://www.w3.org/2000/svg") st!"svg" [] (.text st!"\n    " (.element (some st!"http://www.w3.org/2000/svg") st!"style" [⟨none, st!"type", st!"text/css"⟩] .nil (.text st!"\n    " (.element (some st!"http://www.w3.org/2000/svg") st!"g" [⟨none, st!"fill", st!"#0000ff"⟩] .nil (.text st!"\n" .nil))))) .nil) =
    some st!"<svg xmlns='http://www.w3.org/2000/svg'>\n    <g fill='#0000ff'/>\n</svg>\n" := by decide +kernel

/-- tests/css.rs:258 `parse_css_18`. -/
example : resave { single := true } (.element (some st!"http://www.w3.org/2000/svg") st!"svg" [] (.text st!"\n    " (.element (some st!"http://www.w3.org/2000/svg") st!"style" [⟨none, st!"type", st!"text/css"⟩] (.text st!"\n        .fil1, .fil2 {fill:blue}\n    " .nil) (.text st!"\n    " (.element (some st!"http://www.w3.org/2000/svg") st!"g" [⟨none, st!"class", st!"fil1"⟩] .nil (.text st!"\n    " (.element (some st!"http://www.w3.org/2000/svg") st!"g" [⟨none, st!"class", st!"fil2"⟩] .nil (.text st!"\n" .nil))))))) .nil) =
    some st!"<svg xmlns='http://www.w3.org/2000/svg'>\n    <g fill='#0000ff'/>\n    <g fill='#0000ff'/>\n</svg>\n" := by decide +kernel

/-- tests/css.rs:272 `parse_css_19`. -/
example : resave { single := true } (.element (some st!"http://www.w3.org/2000/svg") st!"svg" [] (.text st!"\n    " (.element (some st!"http://www.w3.org/2000/svg") st!"style" [⟨none, st!"type", st!"text/css"⟩] (.text st!"\n    \n    \n    " .nil) (.text st!"\n" .nil))) .nil) =
    some st!"<svg xmlns='http://www.w3.org/2000/svg'/>\n" := by decide +kernel

/-- tests/css.rs:282 `parse_css_20`. -/
example : resave { single := true } (.element (some st!"http://www.w3.org/2000/svg") st!"svg" [] (.text st!"\n    " (.element (some st!"http://www.w3.org/2000/svg") st!"style" [⟨none, st!"type", st!"text/css"⟩] (.text st!"\n        .cls-1,.cls-17{fill:red;}\n        .cls-1{stroke:red;}\n        .cls-17{stroke:black;}\n    " .nil) (.text st!"\n    " (.element (some st!"http://www.w3.org/2000/svg") st!"g" [⟨none, st!"class", st!"cls-1"⟩] .nil (.text st!"\n    " (.element (some st!"http://www.w3.org/2000/svg") st!"g" [⟨none, st!"class", st!"cls-17"⟩] .nil (.text st!"\n" .nil))))))) .nil) =
    some st!"<svg xmlns='http://www.w3.org/2000/svg'>\n    <g fill='#ff0000' stroke='#ff0000'/>\n    <g fill='#ff0000' stroke='#000000'/>\n</svg>\n" := by decide +kernel

/-- tests/css.rs:298 `parse_css_21`. -/
example : resave { single := true } (.element (some st!"http://www.w3.org/2000/svg") st!"svg" [] (.text st!"\n    " (.element (some st!"http://www.w3.org/2000/svg") st!"style" [] (.text st!"#g1 { fill:red }" .nil) (.text st!"\n    " (.element (some st!"http://www.w3.org/2000/svg") st!"style" [⟨none, st!"type", st!"text/css"⟩] (.text st!"#g1 { fill:blue }" .nil) (.text st!"\n    " (.element (some st!"http://www.w3.org/2000/svg") st!"style" [⟨none, st!"type", st!"blah"⟩] (.text st!"#g1 { fill:red }" .nil) (.text st!"\n    " (.element (some st!"http://www.w3.org/2000/svg") st!"g" [⟨none, st!"id", st!"g1"⟩] .nil (.text st!"\n" .nil))))))))) .nil) =
    some st!"<svg xmlns='http://www.w3.org/2000/svg'>\n    <g id='g1' fill='#0000ff'/>\n</svg>\n" := by decide +kernel

/-- tests/css.rs:311 `parse_css_23`. -/
example : resave { single := true } (.element (some st!"http://www.w3.org/2000/svg") st!"svg" [] (.text st!"\n    " (.element (some st!"http://www.w3.org/2000/svg") st!"style" [⟨none, st!"type", st!"text/css"⟩] (.text st!"\n        rect { marker: url(#marker1); }\n    " .nil) (.text st!"\n    " (.element (some st!"http://www.w3.org/2000/svg") st!"marker" [⟨none, st!"id", st!"marker1"⟩] .nil (.text st!"\n    " (.element (some st!"http://www.w3.org/2000/svg") st!"rect" [] .nil (.text st!"\n" .nil))))))) .nil) =
    some st!"<svg xmlns='http://www.w3.org/2000/svg'>\n    <marker id='marker1'/>\n    <rect marker-end='url(#marker1)' marker-mid='url(#marker1)' marker-start='url(#marker1)'/>\n</svg>\n" := by decide +kernel

/-- tests/css.rs:327 `parse_css_24`. -/
example : resave { single := true } (.element (some st!"http://www.w3.org/2000/svg") st!"svg" [] (.text st!"\n    " (.element (some st!"http://www.w3.org/2000/svg") st!"style" [] (.text st!"\n    \n        .fil1 {fill:blue}\n    \n    " .nil) (.text st!"\n    " (.element (some st!"http://www.w3.org/2000/svg") st!"g" [⟨none, st!"class", st!"fil1"⟩] .nil (.text st!"\n" .nil))))) .nil) =
    some st!"<svg xmlns='http://www.w3.org/2000/svg'>\n    <g fill='#0000ff'/>\n</svg>\n" := by decide +kernel

/-- tests/css.rs:342 `parse_css_25`. -/
example : resave { single := true } (.element (some st!"http://www.w3.org/2000/svg") st!"svg" [] (.text st!"\n    " (.element (some st!"http://www.w3.org/2000/svg") st!"style" [] (.text st!"\n        #g1 { height:100; transform:scale(2) }\n    " .nil) (.text st!"\n    " (.element (some st!"http://www.w3.org/2000/svg") st!"g" [⟨none, st!"id", st!"g1"⟩] .nil (.text st!"\n" .nil))))) .nil) =
    some st!"<svg xmlns='http://www.w3.org/2000/svg'>\n    <g id='g1' transform='matrix(2 0 0 2 0 0)'/>\n</svg>\n" := by decide +kernel

/-- tests/text.rs:153 `text_3`. -/
example : resave { single := true } (.element (some st!"http://www.w3.org/2000/svg") st!"svg" [] (.text st!"\n    " (.element (some st!"http://www.w3.org/2000/svg") st!"text" [] (.text st!"\n        text\n    " .nil) (.text st!"\n" .nil))) .nil) =
    some st!"<svg xmlns='http://www.w3.org/2000/svg'>\n    <text>text</text>\n</svg>\n" := by decide +kernel

/-- tests/text.rs:166 `text_4`. -/
example : resave { single := true } (.element (some st!"http://www.w3.org/2000/svg") st!"svg" [] (.text st!"\n    " (.element (some st!"http://www.w3.org/2000/svg") st!"text" [] (.text st!"\n        Line 1\n        Line 2\n        Line 3\n    " .nil) (.text st!"\n" .nil))) .nil) =
    some st!"<svg xmlns='http://www.w3.org/2000/svg'>\n    <text>Line 1 Line 2 Line 3</text>\n</svg>\n" := by decide +kernel

/-- tests/text.rs:181 `text_5`. -/
example : resave { single := true } (.element (some st!"http://www.w3.org/2000/svg") st!"svg" [] (.text st!"\n    " (.element (some st!"http://www.w3.org/2000/svg") st!"text" [⟨(some st!"http://www.w3.org/XML/1998/namespace"), st!"space", st!"preserve"⟩] (.text st!"\n        Line 1\n        Line 2\n        Line 3\n    " .nil) (.text st!"\n" .nil))) .nil) =
    some st!"<svg xmlns='http://www.w3.org/2000/svg'>\n    <text xml:space='preserve'>         Line 1         Line 2         Line 3     </text>\n</svg>\n" := by decide +kernel

/-- tests/text.rs:197 `text_6`. -/
example : resave { single := true } (.element (some st!"http://www.w3.org/2000/svg") st!"svg" [] (.text st!"\n    " (.element (some st!"http://www.w3.org/2000/svg") st!"text" [] .nil (.text st!"\n    " (.element (some st!"http://www.w3.org/2000/svg") st!"text" [] (.text st!" " .nil) (.text st!"\n    " (.element (some st!"http://www.w3.org/2000/svg") st!"text" [] (.text st!"  " .nil) (.text st!"\n    " (.element (some st!"http://www.w3.org/2000/svg") st!"text" [] (.text st!" \t \n \n " .nil) (.text st!"\n    " (.element (some st!"http://www.w3.org/2000/svg") st!"text" [] (.text st!" \t  text \t  text  t \t\n  " .nil) (.text st!"\n    " (.element (some st!"http://www.w3.org/2000/svg") st!"text" [⟨(some st!"http://www.w3.org/XML/1998/namespace"), st!"space", st!"preserve"⟩] (.text st!" \t \n text \t  text  t \t \n\n" .nil) (.text st!"\n" .nil))))))))))))) .nil) =
    some st!"<svg xmlns='http://www.w3.org/2000/svg'>\n    <text/>\n    <text/>\n    <text/>\n    <text/>\n    <text>text text t</text>\n    <text xml:space='preserve'>     text    text  t     </text>\n</svg>\n" := by decide +kernel

/-- tests/text.rs:218 `text_7`. -/
example : resave { single := true } (.element (some st!"http://www.w3.org/2000/svg") st!"svg" [] (.text st!"\n    " (.element (some st!"http://www.w3.org/2000/svg") st!"text" [] (.text st!"&<>" .nil) (.text st!"\n" .nil))) .nil) =
    some st!"<svg xmlns='http://www.w3.org/2000/svg'>\n    <text>&&lt;></text>\n</svg>\n" := by decide +kernel

/-- tests/text.rs:228 `text_8`. -/
example : resave { single := true } (.element (some st!"http://www.w3.org/2000/svg") st!"svg" [] (.text st!"\n    " (.element (some st!"http://www.w3.org/2000/svg") st!"text" [] (.text st!"Text" .nil) (.text st!"\n    " (.element (some st!"http://www.w3.org/2000/svg") st!"rect" [] .nil (.text st!"\n" .nil))))) .nil) =
    some st!"<svg xmlns='http://www.w3.org/2000/svg'>\n    <text>Text</text>\n    <rect/>\n</svg>\n" := by decide +kernel

/-- tests/text.rs:240 `text_9`. -/
example : resave { single := true } (.element (some st!"http://www.w3.org/2000/svg") st!"svg" [] (.text st!"\n    " (.element (some st!"http://www.w3.org/2000/svg") st!"text" [] (.text st!" &Text& " .nil) (.text st!"\n" .nil))) .nil) =
    some st!"<svg xmlns='http://www.w3.org/2000/svg'>\n    <text>&Text&</text>\n</svg>\n" := by decide +kernel

/-- tests/text.rs:250 `text_10`. -/
example : resave { single := true } (.element (some st!"http://www.w3.org/2000/svg") st!"svg" [] (.text st!"\n    " (.element (some st!"http://www.w3.org/2000/svg") st!"text" [] (.text st!" &@@& " .nil) (.text st!"\n" .nil))) .nil) =
    some st!"<svg xmlns='http://www.w3.org/2000/svg'>\n    <text>&@@&</text>\n</svg>\n" := by decide +kernel

/-- tests/text.rs:262 `text_tspan_1`. -/
example : resave { single := true } (.element (some st!"http://www.w3.org/2000/svg") st!"svg" [] (.text st!"\n    " (.element (some st!"http://www.w3.org/2000/svg") st!"text" [] (.text st!"\n      Some \t " (.element (some st!"http://www.w3.org/2000/svg") st!"tspan" [] (.text st!"  complex  " .nil) (.text st!"  text \t\n    " .nil))) (.text st!"\n" .nil))) .nil) =
    some st!"<svg xmlns='http://www.w3.org/2000/svg'>\n    <text>Some <tspan>complex</tspan> text</text>\n</svg>\n" := by decide +kernel

/-- tests/text.rs:275 `text_tspan_2`. -/
example : resave { single := true } (.element (some st!"http://www.w3.org/2000/svg") st!"svg" [] (.text st!"\n    " (.element (some st!"http://www.w3.org/2000/svg") st!"text" [] (.element (some st!"http://www.w3.org/2000/svg") st!"tspan" [] (.text st!"Text" .nil) .nil) (.text st!"\n" .nil))) .nil) =
    some st!"<svg xmlns='http://www.w3.org/2000/svg'>\n    <text><tspan>Text</tspan></text>\n</svg>\n" := by decide +kernel

/-- tests/text.rs:286 `text_tspan_3`. -/
example : resave { single := true } (.element (some st!"http://www.w3.org/2000/svg") st!"svg" [] (.text st!"\n    " (.element (some st!"http://www.w3.org/2000/svg") st!"text" [] (.text st!"\n        " (.element (some st!"http://www.w3.org/2000/svg") st!"tspan" [] (.text st!"Text" .nil) (.text st!"\n        " (.element (some st!"http://www.w3.org/2000/svg") st!"tspan" [] (.text st!"Text" .nil) (.text st!"\n        " (.element (some st!"http://www.w3.org/2000/svg") st!"tspan" [] (.text st!"Text" .nil) (.text st!"\n    " .nil))))))) (.text st!"\n" .nil))) .nil) =
    some st!"<svg xmlns='http://www.w3.org/2000/svg'>\n    <text><tspan>Text</tspan> <tspan>Text</tspan> <tspan>Text</tspan></text>\n</svg>\n" := by decide +kernel

/-- tests/text.rs:301 `text_tspan_4`. -/
example : resave { single := true } (.element (some st!"http://www.w3.org/2000/svg") st!"svg" [] (.text st!"\n    " (.element (some st!"http://www.w3.org/2000/svg") st!"text" [] (.text st!"Some" (.element (some st!"http://www.w3.org/2000/svg") st!"tspan" [] (.text st!" long " .nil) (.text st!"text" .nil))) (.text st!"\n" .nil))) .nil) =
    some st!"<svg xmlns='http://www.w3.org/2000/svg'>\n    <text>Some<tspan> long </tspan>text</text>\n</svg>\n" := by decide +kernel

/-- tests/text.rs:312 `text_tspan_5`. -/
example : resave { single := true } (.element (some st!"http://www.w3.org/2000/svg") st!"svg" [] (.text st!"\n    " (.element (some st!"http://www.w3.org/2000/svg") st!"text" [] (.text st!"Some " (.element (some st!"http://www.w3.org/2000/svg") st!"tspan" [] (.text st!"long" .nil) (.text st!" text" .nil))) (.text st!"\n" .nil))) .nil) =
    some st!"<svg xmlns='http://www.w3.org/2000/svg'>\n    <text>Some <tspan>long</tspan> text</text>\n</svg>\n" := by decide +kernel

/-- tests/text.rs:323 `text_tspan_6`. -/
example : resave { single := true } (.element (some st!"http://www.w3.org/2000/svg") st!"svg" [] (.text st!"\n    " (.element (some st!"http://www.w3.org/2000/svg") st!"text" [] (.text st!"  Some  " (.element (some st!"http://www.w3.org/2000/svg") st!"tspan" [] (.text st!"  not  " (.element (some st!"http://www.w3.org/2000/svg") st!"tspan" [] (.text st!"  very  " .nil) (.text st!"  long  " .nil))) (.text st!"  text  " .nil))) (.text st!"\n" .nil))) .nil) =
    some st!"<svg xmlns='http://www.w3.org/2000/svg'>\n    <text>Some <tspan>not <tspan>very</tspan> long</tspan> text</text>\n</svg>\n" := by decide +kernel

/-- tests/text.rs:334 `text_tspan_7`. -/
example : resave { single := true } (.element (some st!"http://www.w3.org/2000/svg") st!"svg" [] (.text st!"\n    " (.element (some st!"http://www.w3.org/2000/svg") st!"text" [] (.element (some st!"http://www.w3.org/2000/svg") st!"tspan" [] (.element (some st!"http://www.w3.org/2000/svg") st!"tspan" [] .nil .nil) .nil) (.text st!"\n    " (.element (some st!"http://www.w3.org/2000/svg") st!"text" [] (.text st!" " (.element (some st!"http://www.w3.org/2000/svg") st!"tspan" [] (.text st!" " (.element (some st!"http://www.w3.org/2000/svg") st!"tspan" [] (.text st!" " .nil) (.text st!" " .nil))) (.text st!" " .nil))) (.text st!"\n" .nil))))) .nil) =
    some st!"<svg xmlns='http://www.w3.org/2000/svg'>\n    <text><tspan><tspan/></tspan></text>\n    <text><tspan><tspan/></tspan></text>\n</svg>\n" := by decide +kernel

/-- tests/text.rs:346 `text_tspan_8`. -/
example : resave { single := true } (.element (some st!"http://www.w3.org/2000/svg") st!"svg" [] (.text st!"\n    " (.element (some st!"http://www.w3.org/2000/svg") st!"text" [] (.text st!"\n        " (.element (some st!"http://www.w3.org/2000/svg") st!"tspan" [] (.text st!"Te" .nil) (.element (some st!"http://www.w3.org/2000/svg") st!"tspan" [] (.text st!"x" .nil) (.text st!"t\n    " .nil)))) (.text st!"\n" .nil))) .nil) =
    some st!"<svg xmlns='http://www.w3.org/2000/svg'>\n    <text><tspan>Te</tspan><tspan>x</tspan>t</text>\n</svg>\n" := by decide +kernel

/-- tests/text.rs:357 `text_tspan_9`. -/
example : resave { single := true } (.element (some st!"http://www.w3.org/2000/svg") st!"svg" [] (.text st!"\n    " (.element (some st!"http://www.w3.org/2000/svg") st!"text" [] (.text st!"\n        text " (.element (some st!"http://www.w3.org/2000/svg") st!"tspan" [] (.text st!"\n            " (.element (some st!"http://www.w3.org/2000/svg") st!"tspan" [] (.text st!"\n                text\n            " .nil) (.text st!" text\n        " .nil))) (.text st!"\n    " .nil))) (.text st!"\n" .nil))) .nil) =
    some st!"<svg xmlns='http://www.w3.org/2000/svg'>\n    <text>text <tspan><tspan>text</tspan> text</tspan></text>\n</svg>\n" := by decide +kernel

/-- tests/text.rs:372 `text_tspan_10`. -/
example : resave { single := true } (.element (some st!"http://www.w3.org/2000/svg") st!"svg" [] (.text st!"\n    " (.element (some st!"http://www.w3.org/2000/svg") st!"text" [] (.text st!"\n      Not\n\n      " (.element (some st!"http://www.w3.org/2000/svg") st!"tspan" [] (.text st!"\n        all characters\n\n        " (.element (some st!"http://www.w3.org/2000/svg") st!"tspan" [] (.text st!"\n          in\n\n          " (.element (some st!"http://www.w3.org/2000/svg") st!"tspan" [] (.text st!"\n            the\n          " .nil) (.text st!"\n        " .nil))) (.text st!"\n\n        " (.element (some st!"http://www.w3.org/2000/svg") st!"tspan" [] (.text st!"\n          text\n        " .nil) (.text st!"\n\n        have a\n      " .nil))))) (.text st!"\n\n      " (.element (some st!"http://www.w3.org/2000/svg") st!"tspan" [] (.text st!"\n        specified\n      " .nil) (.text st!"\n\n      rotation\n    " .nil))))) (.text st!"\n" .nil))) .nil) =
    some st!"<svg xmlns='http://www.w3.org/2000/svg'>\n    <text>Not <tspan>all characters <tspan>in <tspan>the</tspan></tspan> <tspan>text</tspan> have a</tspan> <tspan>specified</tspan> rotation</text>\n</svg>\n" := by decide +kernel

/-- tests/text.rs:409 `text_space_preserve_1`. -/
example : resave { single := true } (.element (some st!"http://www.w3.org/2000/svg") st!"svg" [] (.text st!"\n    " (.element (some st!"http://www.w3.org/2000/svg") st!"text" [⟨(some st!"http://www.w3.org/XML/1998/namespace"), st!"space", st!"preserve"⟩] (.text st!" Text\n    " .nil) (.text st!"\n" .nil))) .nil) =
    some st!"<svg xmlns='http://www.w3.org/2000/svg'>\n    <text xml:space='preserve'> Text     </text>\n</svg>\n" := by decide +kernel

/-- tests/text.rs:421 `text_space_preserve_2`. -/
example : resave { single := true } (.element (some st!"http://www.w3.org/2000/svg") st!"svg" [⟨(some st!"http://www.w3.org/XML/1998/namespace"), st!"space", st!"preserve"⟩] (.text st!"\n    " (.element (some st!"http://www.w3.org/2000/svg") st!"text" [] (.text st!" Text\n    " .nil) (.text st!"\n" .nil))) .nil) =
    some st!"<svg xmlns='http://www.w3.org/2000/svg' xml:space='preserve'>\n    <text> Text     </text>\n</svg>\n" := by decide +kernel

/-- tests/text.rs:433 `text_space_preserve_3`. -/
example : resave { single := true } (.element (some st!"http://www.w3.org/2000/svg") st!"svg" [] (.text st!"\n    " (.element (some st!"http://www.w3.org/2000/svg") st!"text" [⟨(some st!"http://www.w3.org/XML/1998/namespace"), st!"space", st!"preserve"⟩] (.text st!"  Text  " (.element (some st!"http://www.w3.org/2000/svg") st!"tspan" [⟨(some st!"http://www.w3.org/XML/1998/namespace"), st!"space", st!"default"⟩] (.text st!"  Text  " .nil) (.text st!"  Text  " .nil))) (.text st!"\n" .nil))) .nil) =
    some st!"<svg xmlns='http://www.w3.org/2000/svg'>\n    <text xml:space='preserve'>  Text  <tspan xml:space='default'>Text </tspan>  Text  </text>\n</svg>\n" := by decide +kernel

/-- tests/text.rs:443 `text_space_preserve_4`. -/
example : resave { single := true } (.element (some st!"http://www.w3.org/2000/svg") st!"svg" [] (.text st!"\n    " (.element (some st!"http://www.w3.org/2000/svg") st!"text" [] (.text st!"\n        Text\n        " (.element (some st!"http://www.w3.org/2000/svg") st!"tspan" [⟨(some st!"http://www.w3.org/XML/1998/namespace"), st!"space", st!"preserve"⟩] (.text st!"  Text  " .nil) (.text st!"\n        Text\n    " .nil))) (.text st!"\n" .nil))) .nil) =
    some st!"<svg xmlns='http://www.w3.org/2000/svg'>\n    <text>Text <tspan xml:space='preserve'>  Text  </tspan>Text</text>\n</svg>\n" := by decide +kernel

/-- tests/text.rs:457 `text_space_preserve_5`. -/
example : resave { single := true } (.element (some st!"http://www.w3.org/2000/svg") st!"svg" [] (.text st!"\n    " (.element (some st!"http://www.w3.org/2000/svg") st!"text" [] (.text st!"\n        Text" (.element (some st!"http://www.w3.org/2000/svg") st!"tspan" [⟨(some st!"http://www.w3.org/XML/1998/namespace"), st!"space", st!"preserve"⟩] (.text st!"  Text  " .nil) (.text st!"Text\n    " .nil))) (.text st!"\n" .nil))) .nil) =
    some st!"<svg xmlns='http://www.w3.org/2000/svg'>\n    <text>Text<tspan xml:space='preserve'>  Text  </tspan>Text</text>\n</svg>\n" := by decide +kernel

/-- tests/text.rs:469 `text_space_preserve_6`. -/
example : resave { single := true } (.element (some st!"http://www.w3.org/2000/svg") st!"svg" [] (.text st!"\n    " (.element (some st!"http://www.w3.org/2000/svg") st!"text" [⟨(some st!"http://www.w3.org/XML/1998/namespace"), st!"space", st!"preserve"⟩] (.element (some st!"http://www.w3.org/2000/svg") st!"tspan" [] (.text st!"Text" .nil) .nil) (.text st!"\n" .nil))) .nil) =
    some st!"<svg xmlns='http://www.w3.org/2000/svg'>\n    <text xml:space='preserve'><tspan>Text</tspan></text>\n</svg>\n" := by decide +kernel

/-- tests/text.rs:480 `text_space_preserve_7`. -/
example : resave { single := true } (.element (some st!"http://www.w3.org/2000/svg") st!"svg" [] (.text st!"\n    " (.element (some st!"http://www.w3.org/2000/svg") st!"text" [⟨none, st!"id", st!"text1"⟩, ⟨(some st!"http://www.w3.org/XML/1998/namespace"), st!"space", st!"preserve"⟩] (.text st!"  Text  " .nil) (.text st!"\n    " (.element (some st!"http://www.w3.org/2000/svg") st!"text" [⟨none, st!"id", st!"text2"⟩] (.text st!"  Text  " .nil) (.text st!"\n" .nil))))) .nil) =
    some st!"<svg xmlns='http://www.w3.org/2000/svg'>\n    <text id='text1' xml:space='preserve'>  Text  </text>\n    <text id='text2'>Text</text>\n</svg>\n" := by decide +kernel

/-- tests/writer.rs:181 `cdata_1`. -/
example : resave { single := true } (.element (some st!"http://www.w3.org/2000/svg") st!"svg" [] (.text st!"\n    " (.element (some st!"http://www.w3.org/2000/svg") st!"script" [] (.text st!"\n        text\n    " .nil) (.text st!"\n" .nil))) .nil) =
    some st!"<svg xmlns='http://www.w3.org/2000/svg'>\n    <script>\n        text\n    </script>\n</svg>\n" := by decide +kernel

/-- tests/writer.rs:195 `cdata_2`. -/
example : resave { single := true } (.element (some st!"http://www.w3.org/2000/svg") st!"svg" [] (.text st!"\n    " (.element (some st!"http://www.w3.org/2000/svg") st!"script" [] .nil (.text st!"\n" .nil))) .nil) =
    some st!"<svg xmlns='http://www.w3.org/2000/svg'>\n    <script/>\n</svg>\n" := by decide +kernel

/-- tests/writer.rs:205 `cdata_3`. -/
example : resave { single := true } (.element (some st!"http://www.w3.org/2000/svg") st!"svg" [] (.text st!"\n    " (.element (some st!"http://www.w3.org/2000/svg") st!"script" [] (.text st!"qweqweqwe" .nil) (.text st!"\n" .nil))) .nil) =
    some st!"<svg xmlns='http://www.w3.org/2000/svg'>\n    <script>\n        qweqweqwe\n    </script>\n</svg>\n" := by decide +kernel

/-- tests/writer.rs:217 `cdata_4`. -/
example : resave { single := true } (.element (some st!"http://www.w3.org/2000/svg") st!"svg" [] (.text st!"\n    " (.element (some st!"http://www.w3.org/2000/svg") st!"script" [] (.text st!"<text/>" .nil) (.text st!"\n" .nil))) .nil) =
    some st!"<svg xmlns='http://www.w3.org/2000/svg'>\n    <script>\n        &lt;text/>\n    </script>\n</svg>\n" := by decide +kernel

/-- tests/writer.rs:374 `escape_1`. -/
example : resave { single := true } (.element (some st!"http://www.w3.org/2000/svg") st!"svg" [⟨none, st!"unicode", st!"ffl"⟩] .nil .nil) =
    some st!"<svg xmlns='http://www.w3.org/2000/svg' unicode='&#x66;&#x66;&#x6c;'/>\n" := by decide +kernel

/-- tests/writer.rs:380 `escape_2`. -/
example : resave { single := true } (.element (some st!"http://www.w3.org/2000/svg") st!"svg" [⟨none, st!"unicode", st!"ffl"⟩] .nil .nil) =
    some st!"<svg xmlns='http://www.w3.org/2000/svg' unicode='&#x66;&#x66;&#x6c;'/>\n" := by decide +kernel

/-- tests/writer.rs:419 `namespaces_1`. -/
example : resave { single := true } (.element (some st!"http://www.w3.org/2000/svg") st!"svg" [] .nil .nil) =
    some st!"<svg xmlns='http://www.w3.org/2000/svg'/>\n" := by decide +kernel

/-- tests/writer.rs:424 `namespaces_2`. -/
example : resave { single := true } (.element (some st!"http://www.w3.org/2000/svg") st!"svg" [] .nil .nil) =
    some st!"<svg xmlns='http://www.w3.org/2000/svg'/>\n" := by decide +kernel

/-- tests/writer.rs:429 `namespaces_3`. -/
example : resave { single := true } (.element (some st!"http://www.w3.org/2000/svg") st!"svg" [⟨(some st!"http://www.w3.org/2000/svg"), st!"x", st!"0"⟩] .nil .nil) =
    some st!"<svg xmlns='http://www.w3.org/2000/svg' x='0'/>\n" := by decide +kernel

/-- tests/writer.rs:435 `namespaces_4`. -/
example : resave { single := true } (.element (some st!"http://www.w3.org/2000/svg") st!"svg" [] (.text st!"\n    " (.element (some st!"http://www.w3.org/2000/02/svg/testsuite/description/") st!"SVGTestCase" [] (.text st!"\n        " (.element (some st!"http://www.w3.org/2000/svg") st!"rect" [] .nil (.text st!"\n    " .nil))) (.text st!"\n" .nil))) .nil) =
    some st!"<svg xmlns='http://www.w3.org/2000/svg'/>\n" := by decide +kernel

/-- tests/writer.rs:444 `aspect_ratio_1`. -/
example : resave { single := true } (.element (some st!"http://www.w3.org/2000/svg") st!"svg" [⟨none, st!"preserveAspectRatio", st!"defer none slice"⟩] .nil .nil) =
    some st!"<svg xmlns='http://www.w3.org/2000/svg' preserveAspectRatio='defer none slice'/>\n" := by decide +kernel

/-- tests/writer.rs:449 `non_svg_1`. -/
example : resave { single := true } (.element (some st!"http://www.w3.org/2000/svg") st!"svg" [] (.text st!"\n    " (.element (some st!"http://www.w3.org/2000/svg") st!"rect" [⟨none, st!"my-attr", st!"qwe"⟩] .nil (.text st!"\n    " (.element (some st!"http://www.w3.org/2000/svg") st!"random" [] .nil (.text st!"\n" .nil))))) .nil) =
    some st!"<svg xmlns='http://www.w3.org/2000/svg'>\n    <rect/>\n</svg>\n" := by decide +kernel

end Svgdom.Check
