#!/usr/bin/env python3
"""Translate the description of the file format, /repo/cmake/lcio.xml.in, to Lean: lean/Verif/Spec/FormatData.lean."""
import re
import xml.parsers.expat

SRC = '/repo/cmake/lcio.xml.in'
OUT = '/verif/lean/Verif/Spec/FormatData.lean'


class Node:
    def __init__(self, tag, attrs, line):
        self.tag, self.attrs, self.line, self.end, self.kids = tag, attrs, line, line, []


def parse(path):
    top = Node('top', {}, 0)
    stack = [top]
    p = xml.parsers.expat.ParserCreate()

    def start(tag, attrs):
        n = Node(tag, attrs, p.CurrentLineNumber)
        stack[-1].kids.append(n)
        stack.append(n)

    def end(tag):
        stack.pop().end = p.CurrentLineNumber

    p.StartElementHandler, p.EndElementHandler = start, end
    text = open(path, 'rb').read()
    p.Parse(text, True)
    return top.kids[0]


def cond(s):
    s = s.strip()
    parts = s.split('||')
    if len(parts) > 1:
        return f'(.or {cond(parts[0])} {cond("||".join(parts[1:]))})'
    parts = s.split('&&')
    if len(parts) > 1:
        return f'(.and {cond(parts[0])} {cond("&&".join(parts[1:]))})'
    m = re.fullmatch(r'1000\*major\+minor(<|>|==)(\d+)', s)
    if m:
        return f'(.{ {"<": "before", ">": "after", "==": "version"}[m[1]] } {m[2]})'
    m = re.fullmatch(r'!\((.*)\)', s)
    if m:
        return f'(.not {cond(m[1])})'
    m = re.fullmatch(r'\((\w+)&\(1<<(\d+)\)\)\s*(!=|==)\s*0', s)
    if m:
        b = f'(.bit "{m[1]}" {m[2]})'
        return b if m[3] == '!=' else f'(.not {b})'
    m = re.fullmatch(r'\((\w+)&(\d+)\)==(\d+)', s)
    if m:
        return f'(.masked "{m[1]}" {m[2]} {m[3]})'
    m = re.fullmatch(r'(\w+)==0', s)
    if m:
        return f'(.zero "{m[1]}")'
    raise Exception(s)


defs = []


def fmt(kids, name, seen):
    """The Lean term for a list of elements; definitions for the bodies of loops are emitted first."""
    out = []
    for k in kids:
        if k.tag == 'data':
            m = re.fullmatch(r'(\w+)(?:\[(\d+)\])?', k.attrs['type'])
            n = k.attrs['name']
            # a second field of the same name in the same element: the momentum at the end point of an MCParticle
            if n in seen and name.startswith('MCParticle') and n == 'momentum':
                n += '2'
            seen.add(n)
            out.append(f'.data .{m[1]} {m[2] or 1} "{n}" <|')
        elif k.tag == 'include':
            out.append(f'.sub {k.attrs["subroutine"]} <|')
        elif k.tag == 'if':
            i = [j for j, c in enumerate(k.kids) if c.tag == 'else']
            yes, no = (k.kids[:i[0]], k.kids[i[0] + 1:]) if i else (k.kids, [])
            y = fmt(yes, name, seen)
            n = fmt(no, name, seen)
            out.append(f'.when {cond(k.attrs["condition"])} ({y}) ({n}) <|')
        elif k.tag == 'repeat':
            c = k.attrs['count']
            if len(k.kids) == 1 and k.kids[0].tag == 'data' and k.kids[0].attrs['type'] == 'short':
                out.append(f'.shorts "{c}" "{k.kids[0].attrs["name"]}" <|')
            else:
                body = f'{name}.{c}'
                while any(n == body for n, _ in defs):
                    body += '2'
                emit(body, k.kids, k, f'The elements that `{c}` counts.')
                out.append(f'.rep "{c}" {body} <|')
        else:
            raise Exception(k.tag)
    return ' '.join(out + ['.done'])


def emit(name, kids, node, doc):
    t = fmt(kids, name, set())
    t = wrap(t)
    defs.append((name, f'/-- cmake/lcio.xml.in:{node.line}-{node.end}. {doc} -/\ndef {name} : Fmt :=\n{t}\n'))


def wrap(t, width=150):
    lines, cur = [], ' '
    for w in t.split(' '):
        if len(cur) + 1 + len(w) > width:
            lines.append(cur)
            cur = '   '
        cur += ' ' + w
    return '\n'.join(lines + [cur])


def main():
    root = parse(SRC)
    for n in root.kids:
        if n.tag == 'subroutine':
            emit(n.attrs['name'], n.kids, n, 'Named parameters.')
    for r in root.kids:
        if r.tag != 'record':
            continue
        for b in r.kids:
            emit(b.attrs['name'], b.kids, b, f'The block `{b.attrs["name"]}` of the record `{r.attrs["name"]}`.')
    with open(OUT, 'w') as f:
        f.write('''import Verif.Spec.Format
/-
The description of the file format that comes with the code, cmake/lcio.xml.in. This file is made from it by tools/format.py.
A loop over a single field of type `short` is written `shorts`. A second field called `momentum` is called `momentum2`.
-/
namespace Spec.Doc

''')
        f.write('\n'.join(d for _, d in defs))
        f.write('\nend Spec.Doc\n')


main()
