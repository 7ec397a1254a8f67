#!/usr/bin/env python3
"""Writes lean/Verif/Check/Resave.lean, the `test_resave!` tests of /repo/tests, to be run on the model, and lean/Verif/Check/Docs.lean,
the documents of the other tests.

The XML text of a test is parsed here (expat) into the tree that roxmltree would give."""
import re, xml.parsers.expat, os
OUT = os.path.join(os.path.dirname(os.path.abspath(__file__)), '../lean/Verif/Check/')

def rust_str(t):
    t = re.sub(r'\\\n\s*', '', t)
    return re.sub(r'\\(.)', lambda m: {'n': '\n', 't': '\t', 'r': '\r', '"': '"', '\\': '\\', "'": "'"}[m.group(1)], t)

def lean(t):
    return 'st!"' + t.replace('\\', '\\\\').replace('"', '\\"').replace('\n', '\\n').replace('\t', '\\t').replace('\r', '\\r') + '"'

def name(q):
    return ('(some ' + lean(q.split('\x01')[0]) + ')', lean(q.split('\x01')[1])) if '\x01' in q else ('none', lean(q))

def tree(text):
    stack = [[]]
    p = xml.parsers.expat.ParserCreate(namespace_separator='\x01')
    p.ordered_attributes = True
    p.buffer_text = True
    def start(q, attrs):
        el = ('el', q, list(zip(attrs[::2], attrs[1::2])), [])
        stack[-1].append(el)
        stack.append(el[3])
    def data(t):
        if len(stack) == 1: return
        if stack[-1] and stack[-1][-1][0] == 'text': stack[-1][-1] = ('text', stack[-1][-1][1] + t)
        else: stack[-1].append(('text', t))
    p.StartElementHandler = start
    p.EndElementHandler = lambda q: stack.pop()
    p.CharacterDataHandler = data
    p.CommentHandler = lambda t: stack[-1].append(('comment', t))
    p.ProcessingInstructionHandler = lambda a, b: stack[-1].append(('pi',))
    p.Parse(text, True)
    return stack[0]

def term(nodes):
    r = '.nil'
    for n in reversed(nodes):
        if n[0] == 'el':
            ns, nm = name(n[1])
            attrs = ', '.join('⟨%s, %s, %s⟩' % (*name(a), lean(v)) for a, v in n[2])
            r = '(.element %s %s [%s] %s %s)' % (ns, nm, attrs, term(n[3]), r)
        elif n[0] == 'pi': r = '(.pi %s)' % r
        else: r = '(.%s %s %s)' % (n[0], lean(n[1]), r)
    return r

def tests():
    for f in ('parser', 'css', 'text', 'writer'):
        src = open('/repo/tests/%s.rs' % f).read()
        for m in re.finditer(r'test_resave!\((\w+),\s*"((?:[^"\\]|\\.)*)",\s*"((?:[^"\\]|\\.)*)"\);', src, re.S):
            yield f, src[:m.start()].count('\n') + 1, m.group(1), rust_str(m.group(2)), rust_str(m.group(3))

def documents():
    for f in ('domapi', 'parser', 'text', 'writer'):
        src = open('/repo/tests/%s.rs' % f).read()
        for m in re.finditer(r'Document::from_str\(\s*"((?:[^"\\]|\\.)*)"\)', src, re.S):
            nm = re.findall(r'fn (\w+)\(', src[:m.start()])[-1]
            if nm not in ('parse_empty_1', 'parse_empty_2', 'parse_empty_4'):
                yield f, src[:m.start()].count('\n') + 1, nm, rust_str(m.group(1))

if __name__ == '__main__':
    out = ['''import Verif.Check.Libs

/-!
# The `test_resave!` tests of the repository, run on the model

Generated by tools/gen_repo_tests.py. These are tests of the model, not proofs of properties: they compare what the model does with what
the authors of the code expect of it, for the documents of tests/*.rs. The external crates are replaced by `Check/Libs.lean`.
-/

set_option autoImplicit false

namespace Svgdom.Check
''']
    for f, line, nm, a, b in tests():
        out.append('/-- tests/%s.rs:%d `%s`. -/\nexample : resave { single := true } %s =\n    some %s := by decide +kernel\n' % (f, line, nm, term(tree(a)), lean(b)))
    out.append('end Svgdom.Check\n')
    open(OUT + 'Resave.lean', 'w').write('\n'.join(out))
    out = ['''import Verif.Check.Libs

/-!
# The XML documents of tests/*.rs that `Check/Api.lean` uses

Generated by tools/gen_repo_tests.py.
-/

set_option autoImplicit false

namespace Svgdom.Check
''']
    for f, line, nm, a in documents():
        out.append('/-- tests/%s.rs:%d, in `%s`. -/\ndef %s_%s : Xml :=\n  %s\n' % (f, line, nm, f, nm, term(tree(a))))
    out.append('end Svgdom.Check\n')
    open(OUT + 'Docs.lean', 'w').write('\n'.join(out))
    print(sum(1 for _ in tests()))
