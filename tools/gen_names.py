#!/usr/bin/env python3
"""Generates lean/Verif/Model/Names.lean from /repo/src/names.rs (both enums and both phf tables)."""
import re, os
src=open('/repo/src/names.rs').read()
lineno=lambda pos: src.count('\n',0,pos)+1
KW={'Type','Prop','Sort'}
q=lambda n: '«%s»'%n if n in KW else n
out=[]
w=out.append
w('''import Verif.Model.Str

/-!
# Names (generated by `tools/gen_names.py` from `/repo/src/names.rs`, do not edit)

`ElementId`, `AttributeId` in declaration order (so the constructor index is Rust's `x as usize`)
and the two phf tables `ELEMENTS` and `ATTRIBUTES`.
-/

namespace Svgdom
''')
for enum,tab in (('ElementId','ELEMENTS'),('AttributeId','ATTRIBUTES')):
    m=re.search(r'pub enum '+enum+r' \{(.*?)\n\}',src,re.S)
    vs=[x.strip() for x in m[1].split(',') if x.strip()]
    l0,l1=lineno(m.start()),lineno(m.end())
    w(f'/-- names.rs:{l0}-{l1} -/')
    w(f'inductive {enum} where')
    for v in vs: w(f'  | {q(v)}')
    w('deriving DecidableEq, Repr, Inhabited\n')
    w(f'/-- All ids, in declaration order (names.rs:{l0}-{l1}). -/')
    w(f'def {enum}.all : List {enum} := [')
    w(',\n'.join('  .%s'%q(v) for v in vs)+']\n')
    w(f'/-- Position in the enum declaration: Rust `x as usize`. (writer.rs:209.) -/')
    w(f'def {enum}.toNat (a : {enum}) : Nat := a.ctorIdx\n')
    w(f'theorem {enum}.all_get (a : {enum}) : {enum}.all[a.toNat]? = some a := by cases a <;> rfl\n')
    w(f'theorem {enum}.mem_all (a : {enum}) : a ∈ {enum}.all := List.mem_of_getElem? (all_get a)\n')
    s=src.index('static '+tab); t=src[s:]; t=t[:t.index('};')]
    l0,l1=lineno(s),lineno(s+len(t))
    key=int(re.search(r'key: (\d+)',t)[1])
    disps=re.findall(r'\((\d+), (\d+)\)',t)
    ents=re.findall(r'\("([^"]+)", \w+::(\w+)\)',t)
    low=tab.lower()
    w(f'/-- The `key` of names.rs:{l0}-{l1}. -/')
    w(f'def {low}Key : Nat := {key}\n')
    w(f'/-- The `disps` of names.rs:{l0}-{l1}. -/')
    w(f'def {low}Disps : List (Nat × Nat) := ['+', '.join('(%s, %s)'%d for d in disps)+']\n')
    w(f'/-- The `entries` of names.rs:{l0}-{l1}. -/')
    w(f'def {low}Entries : List (Str × {enum}) := [')
    w(',\n'.join('  (st! "%s", .%s)'%(n,q(v)) for n,v in ents)+']\n')
w('end Svgdom')
open(os.path.join(os.path.dirname(os.path.abspath(__file__)),'../lean/Verif/Model/Names.lean'),'w').write('\n'.join(out)+'\n')
