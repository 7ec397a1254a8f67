#!/usr/bin/env python3
"""Compares the text model (Model/Text.lean) with the expectations in /repo/tests/text.rs.

Writes a Lean file that evaluates `parseSvg` on the inputs of the repo's own tests (read with a Python XML parser) and
compares the text below `text` elements with the expected output. This validates the model; it proves nothing.
Usage: validate_text.py OUT.lean; then `lake env lean OUT.lean` in /verif/lean."""
import re, sys
from xml.dom import minidom

src = open('/repo/tests/text.rs').read()

def unescape(s):
    return s.encode().decode('unicode_escape')

def lean_str(s):
    return '[' + ', '.join(f'Char.ofNat {ord(c)}' for c in s) + ']'

def lean_opt(s):
    return 'none' if s is None else f'(some {lean_str(s)})'

def xml_term(nodes):
    if not nodes:
        return '.nil'
    n, rest = nodes[0], xml_term(nodes[1:])
    if n.nodeType == n.ELEMENT_NODE:
        attrs = [f'⟨{lean_opt(a.namespaceURI)}, {lean_str(a.localName)}, {lean_str(a.value)}⟩'
                 for a in n.attributes.values() if a.prefix != 'xmlns' and a.name != 'xmlns']
        return f'(.element {lean_opt(n.namespaceURI)} {lean_str(n.localName)} [{", ".join(attrs)}] {xml_term(list(n.childNodes))} {rest})'
    if n.nodeType == n.TEXT_NODE:
        return f'(.text {lean_str(n.data)} {rest})'
    if n.nodeType == n.COMMENT_NODE:
        return f'(.comment {lean_str(n.data)} {rest})'
    return f'(.pi {rest})'

def shape(n):
    """Tags and texts inside `text` elements, as one string."""
    out = ''
    for c in n.childNodes:
        if c.nodeType == c.ELEMENT_NODE:
            out += f'<{c.localName}>' + shape(c) + '</>'
        elif c.nodeType == c.TEXT_NODE:
            out += c.data
    return out

def texts(doc):
    return [shape(t) for t in doc.getElementsByTagName('text') if t.parentNode.localName != 'text']

cases = []
for m in re.finditer(r'test_resave!\((\w+),\s*"((?:[^"\\]|\\.)*)",\s*"((?:[^"\\]|\\.)*)"\);', src):
    name, a, b = m.group(1), unescape(m.group(2)), unescape(m.group(3))
    try:
        cases.append((name, minidom.parseString(a), texts(minidom.parseString(re.sub(r'&(?!lt;)', '&amp;', b)))))
    except Exception as e:
        print('skip', name, e)

out = ['''import Verif.Model.Text
open Svgdom

def lib : Lib := ⟨fun _ => none, fun _ => none, fun _ => none, fun _ => none, fun _ => none, fun _ => none, fun _ => none,
  fun _ => none, fun _ => none, fun _ => [], fun _ => none, fun _ => none, fun _ => none, fun _ => none, fun _ => [], fun _ => []⟩

partial def shape (s : St) (n : NodeId) : String :=
  match s.childList n with
  | .ok cs => String.join (cs.map fun c =>
      if s.isText c then String.ofList (s.text c)
      else if s.isElement c then
        "<" ++ (match s.tagId c with | some e => (match e.asStr? with | .ok x => String.ofList x | _ => "?") | none => "?") ++ ">" ++ shape s c ++ "</>"
      else "")
  | .error _ => "ERR"

partial def texts (s : St) (n : NodeId) : List String :=
  match s.childList n with
  | .ok cs => cs.flatMap fun c => if s.tagId c = some .Text then [shape s c] else texts s c
  | .error _ => ["ERR"]

def check (name : String) (x : Xml) (want : List String) : IO Unit :=
  match parseSvg lib true x with
  | .ok s => let got := texts s s.rootId
    if got == want then IO.println s!"ok {name}" else IO.println s!"DIFF {name}\\n got {got}\\n want {want}"
  | .error _ => IO.println s!"FAIL {name}"
''']
import json
for name, d, want in cases:
    w = ', '.join('String.ofList ' + lean_str(x) for x in want)
    out.append(f'#eval check "{name}" {xml_term(list(d.childNodes))} [{w}]')
open(sys.argv[1], 'w').write('\n'.join(out) + '\n')
