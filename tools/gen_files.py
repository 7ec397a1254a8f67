#!/usr/bin/env python3
"""Generates lean/Verif/Model/SpecFiles.lean from /repo/codegen/*.txt and the enums of /repo/src/names.rs."""
import re, os
src=open('/repo/src/names.rs').read()
lineno=lambda pos: src.count('\n',0,pos)+1
KW={'Type','Prop','Sort'}
q=lambda n: '«%s»'%n if n in KW else n
esc=lambda t: t.replace('\\','\\\\').replace('"','\\"').replace('\n','\\n').replace('\r','\\r').replace('\t','\\t')
out=[]
w=out.append
w('''import Verif.Model.Names

/-!
# Inputs of the table generator (generated by `tools/gen_files.py` from `/repo/codegen` and `/repo/src/names.rs`, do not edit)

The two text files as they are, cut into pieces after line feeds only to keep the lines short, and the identifiers of the enum variants.
-/

set_option autoImplicit false

namespace Svgdom
''')
for enum,f in (('ElementId','elements'),('AttributeId','attributes')):
    raw=open(f'/repo/codegen/{f}.txt').read()
    lines=raw.splitlines(keepends=True)
    w(f'/-- codegen/{f}.txt, the whole file. -/')
    w(f'def {f}Txt : Str := List.flatten [')
    w(',\n'.join('  st! "%s"'%esc(''.join(lines[i:i+6])) for i in range(0,len(lines),6))+']\n')
    m=re.search(r'pub enum '+enum+r' \{(.*?)\n\}',src,re.S)
    vs=[x.strip() for x in m[1].split(',') if x.strip()]
    w(f'/-- names.rs:{lineno(m.start())}-{lineno(m.end())}: the identifiers of the variants. -/')
    w(f'def {enum}.variant : {enum} → Str')
    for v in vs: w(f'  | .{q(v)} => st! "{v}"')
    w('')
w('end Svgdom')
open(os.path.join(os.path.dirname(os.path.abspath(__file__)),'../lean/Verif/Model/SpecFiles.lean'),'w').write('\n'.join(out)+'\n')
