#!/usr/bin/env python3
"""Generates lean/Verif/Model/Tables.lean from element_type.rs, attribute_type.rs and attribute_value.rs."""
import re
SRC = '/repo/src/'

def lines_of(text, pos):
    return text.count('\n', 0, pos) + 1

out = ['''import Verif.Model.Node

/-!
# Category tables and default values (generated by `tools/gen_tables.py`, do not edit)

The `match` arms of element_type.rs, attribute_type.rs and `default_value` of attribute_value.rs.
-/

namespace Svgdom
''']

# element_type.rs
t = open(SRC + 'element_type.rs').read()
for m in re.finditer(r'is_func!\((\w+),\s*((?:\s*\|?\s*ElementId::\w+)+)\);', t):
    name = m.group(1)
    ids = re.findall(r'ElementId::(\w+)', m.group(2))
    camel = re.sub(r'_(\w)', lambda x: x.group(1).upper(), name)
    a, b = lines_of(t, m.start()), lines_of(t, m.end())
    out.append(f'/-- element_type.rs:{a}-{b}, the ids listed in `{name}`. -/')
    out.append(f'def ElementId.{camel} (e : ElementId) : Bool :=')
    out.append('  decide (e ∈ [' + ', '.join('.' + i for i in ids) + '])\n')
    out.append(f'/-- element_type.rs:109-122, {a}-{b} `{name}`. -/')
    out.append(f'def St.{camel} (s : St) (i : NodeId) : Bool :=')
    out.append(f'  match s.tagId i with\n  | some e => e.{camel}\n  | none => false\n')

# attribute_type.rs
t = open(SRC + 'attribute_type.rs').read()
impl = t.index('impl AttributeType for AttributeId')
for m in re.finditer(r'fn (\w+)\((?:&self|id: AttributeId)\) -> bool \{\s*match (?:\*self|id) \{\s*((?:\s*\|?\s*AttributeId::\w+)+) => true,', t):
    if m.start() < impl: continue
    name = m.group(1)
    ids = re.findall(r'AttributeId::(\w+)', m.group(2))
    camel = re.sub(r'_(\w)', lambda x: x.group(1).upper(), name)
    a, b = lines_of(t, m.start()), lines_of(t, m.end()) + 3
    out.append(f'/-- attribute_type.rs:{a}-{b} `{name}`. -/')
    out.append(f'def AttributeId.{camel} (a : AttributeId) : Bool :=')
    out.append('  decide (a ∈ [' + ', '.join('.' + i for i in ids) + '])\n')
m = re.search(r'fn is_inheritable\(&self\) -> bool \{\s*if self', t)
a = lines_of(t, m.start())
out.append(f'''/-- attribute_type.rs:{a}-{a+6} `is_inheritable`. -/
def AttributeId.isInheritable (a : AttributeId) : Bool :=
  if a.isPresentation then !a.isNonInheritable else false
''')
for name in re.findall(r'is_func!\((\w+)\);', t):
    camel = re.sub(r'_(\w)', lambda x: x.group(1).upper(), name)
    out.append(f'/-- attribute_type.rs:58-80 `{name}` of an attribute. -/')
    out.append(f'def Attribute.{camel} (a : Attribute) : Bool :=')
    out.append(f'  match a.name with\n  | .id i => i.{camel}\n  | .name _ => false\n')

# attribute_value.rs default_value
t = open(SRC + 'attribute_value.rs').read()
s = t.index('pub fn default_value'); e = t.index('_ => None,', s)
body = t[t.index('match id {', s):e]
out.append(f'/-- attribute_value.rs:{lines_of(t,s)}-{lines_of(t,e)+2} `default_value`. -/')
out.append('def defaultValue (a : AttributeId) : Option AttributeValue :=')
def val(v):
    v = v.strip().rstrip(',')
    if v == 'Some(AttributeValue::None)': return '.none'
    x = re.fullmatch(r'some!\((.*)\)', v).group(1)
    if x.startswith('"'): return f'.string (st!{x})'
    if x == 'Color::black()': return '.color ⟨0, 0, 0⟩'
    if x == 'Color::white()': return '.color ⟨255, 255, 255⟩'
    if re.fullmatch(r'[\d.]+', x): return f'.number (.fin {int(float(x))})'
    m = re.fullmatch(r'\(([\d.]+), LengthUnit::None\)', x)
    return f'.length ⟨.fin {int(float(m.group(1)))}, .none⟩'
first = True
for m in re.finditer(r'((?:\s*\|?\s*AttributeId::\w+)+)\s*=>\s*(.*),\n', body):
    ids = re.findall(r'AttributeId::(\w+)', m.group(1))
    out.append(('  ' if first else '  else ')
        + 'if a ∈ ([' + ', '.join('.' + i for i in ids) + f'] : List AttributeId) then some ({val(m.group(2))})')
    first = False
out.append('  else none\n')
out.append('''/-- attribute.rs:43-48 `new_default`. -/
def newDefault (a : AttributeId) : Option Attribute :=
  match defaultValue a with
  | some v => some ⟨.id a, v⟩
  | none => none

end Svgdom''')
open('/verif/lean/Verif/Model/Tables.lean', 'w').write('\n'.join(out) + '\n')
