"""Generate lean/Verif/Telescopes.lean: the shape (classes and names) of every telescope in /repo/batoid/data.

Reads the YAML files with a reader for the subset of YAML they use (nested mappings and lists, anchors, comments).
Usage: python3 tools/telescopes.py [/repo/batoid/data] > lean/Verif/Telescopes.lean
"""
import re, sys, glob, os


def load(path):
    lines = []
    for l in open(path):
        l = re.sub(r'(^|\s)#.*$', '', l.rstrip('\n'))
        if l.strip():
            lines.append(l)
    anchors = {}
    pos = [0]

    def ind(l):
        return len(l) - len(l.lstrip())

    def scalar(v):
        v = v.strip()
        return anchors[v[1:]] if v.startswith('*') else v

    def block(i):
        t = lines[pos[0]].strip()
        return seq(i) if t == '-' or t.startswith('- ') else mapping(i)

    def seq(i):
        out = []
        while pos[0] < len(lines) and ind(lines[pos[0]]) == i and lines[pos[0]].strip()[0] == '-':
            t = lines[pos[0]].strip()
            if t == '-':
                pos[0] += 1
                out.append(block(ind(lines[pos[0]])))
            elif ':' in t:
                lines[pos[0]] = ' ' * (i + 1) + t[1:]
                out.append(block(ind(lines[pos[0]])))
            else:
                pos[0] += 1
                out.append(scalar(t[1:]))
        return out

    def mapping(i):
        out = {}
        while pos[0] < len(lines) and ind(lines[pos[0]]) == i:
            k, v = lines[pos[0]].strip().split(':', 1)
            v = v.strip()
            pos[0] += 1
            a = None
            m = re.match(r'&(\w+)\s*(.*)', v)
            if m:
                a, v = m.group(1), m.group(2)
            while v.startswith('[') and v.count('[') > v.count(']'):
                v += lines[pos[0]].strip()
                pos[0] += 1
            if v == '':
                x = block(ind(lines[pos[0]]))
            else:
                x = scalar(v)
            if a:
                anchors[a] = x
            assert k not in out, (path, k)
            out[k] = x
        return out

    r = block(0)
    assert pos[0] == len(lines), path
    return r


def chars(s):
    return '[' + ', '.join("'%s'" % c for c in s) + ']'


def shape(o, media):
    def tag(k):
        if k not in o:
            return None
        m = repr(o[k])
        if m not in media:
            media.append(m)
        return media.index(m)
    tags = tag('inMedium'), tag('outMedium'), tag('medium')
    return (o['type'], o['name'], tags, tuple(shape(c, media) for c in o['items']) if 'items' in o else None)


CTOR = {'Mirror': '.mirror', 'RefractiveInterface': '.refractive', 'Baffle': '.baffle', 'Detector': '.detector',
        'Interface': '.plain', 'OPDScreen': '.screen', 'Lens': '.lens', 'CompoundOptic': '.compound'}


def term(s, indent):
    t, n, tags, items = s
    head = '%s %s ⟨%s⟩' % (CTOR[t], chars(n), ', '.join('none' if m is None else 'some %d' % m for m in tags))
    if items is None:
        return '%s.part %s' % (' ' * indent, head)
    return '%s.group %s [\n%s]' % (' ' * indent, head, ',\n'.join(term(c, indent + 2) for c in items))


def main():
    root = sys.argv[1] if len(sys.argv) > 1 else '/repo/batoid/data'
    shapes, files = {}, []
    for p in sorted(glob.glob(root + '/*/*.yaml')):
        s = shape(load(p)['opticalSystem'], [])
        shapes.setdefault(s, 'shape_' + re.sub(r'\W', '_', os.path.basename(p)[:-5]))
        files.append((os.path.basename(p), s))
    print('''/-
The shapes of the telescopes that come with batoid: classes, names and media of all optics of the files in /repo/batoid/data.
Generated by tools/telescopes.py; files of the same shape share a definition.
-/
import Verif.Optic

namespace Batoid

/-- The value of `type` in the configuration of an optic: batoid/parse.py L126-215. -/
inductive ShapeType where
  | mirror | refractive | baffle | detector | plain | screen | lens | compound
deriving DecidableEq

/-- The media named in the configuration of an optic; equal numbers mean equal media. -/
structure ShapeMedia where
  inMedium : Option ℕ
  outMedium : Option ℕ
  medium : Option ℕ

/-- Types, names and media of an optic and its items. -/
inductive Shape where
  | part (type : ShapeType) (name : Name) (media : ShapeMedia)
  | group (type : ShapeType) (name : Name) (media : ShapeMedia) (items : List Shape)
''')
    for s, d in shapes.items():
        print('/-- %s -/' % ', '.join(f for f, x in files if x == s))
        print('def %s : Shape :=\n%s\n' % (d, term(s, 2)))
    print('/-- The files of /repo/batoid/data/*/*.yaml. -/')
    print('def telescopes : List (String × Shape) := [\n%s]\n' % ',\n'.join('  ("%s", %s)' % (f, shapes[s]) for f, s in files))
    print('end Batoid')


main()
