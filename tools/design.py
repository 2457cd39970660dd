"""Assembles DESIGN.md: head, plan per property, trusted base, findings, coverage, axioms."""
import json, re, os, glob, collections, subprocess, sys
V = '/verif'
R = '/repo/karta'

def coverage():
    cites = collections.defaultdict(set)
    for f in glob.glob(V + '/lean/Verif/**/*.lean', recursive=True):
        s = open(f).read()
        for m in re.finditer(r'([A-Za-z_]+\.(?:pyx|py|h|c)) ((?:\d+(?:-\d+)?(?:, )?)+)', s):
            for r in re.findall(r'\d+(?:-\d+)?', m.group(2)):
                a, b = (r.split('-') + [r])[:2]
                cites[m.group(1)].update(range(int(a), int(b) + 1))
    def funcs(path):
        L = open(path).read().split('\n')
        out, cls = [], ''
        for i, l in enumerate(L, 1):
            c = re.match(r'(?:cdef )?class (\w+)', l)
            if c: cls = c.group(1)
            m = re.match(r'( *)(?:def|cpdef|cdef)\b.*?([A-Za-z_0-9]+)\(', l)
            if m and (l.strip().startswith('def') or l.rstrip().endswith((':', ','))):
                if m.group(1) == '': cls = ''
                out.append([(cls + '.' if m.group(1) else '') + m.group(2), i, None])
            if path.endswith('.h'):
                m = re.match(r'[a-zA-Z_ \*]+?([A-Za-z_0-9]+)\(.*\)?\s*\{', l)
                if m and not l.startswith(' '): out.append([m.group(1), i, None])
        for k in range(len(out)):
            out[k][2] = out[k + 1][1] - 1 if k + 1 < len(out) else len(L)
        return out
    rows = []
    for p in sorted(glob.glob(R + '/**/*', recursive=True)):
        if p.endswith(('.py', '.pyx', '.h')) and 'test' not in p:
            b = os.path.basename(p)
            fs = funcs(p)
            if not fs: continue
            hit = lambda a, z: any(i in cites[b] for i in range(a, z + 1))
            yes = [n for n, a, z in fs if hit(a, z)]
            no = [n for n, a, z in fs if not hit(a, z)]
            rows.append((p[len(R) + 1:], yes, no))
    return rows

def main():
    props = [json.loads(l) for l in open(V + '/properties.jsonl')]
    man = {c['property']: c for c in json.load(open(V + '/MANIFEST.json'))['claims']}
    meth = json.load(open(V + '/tools/methods.json'))
    out = [open(V + '/tools/design_head.md').read().rstrip()]
    for p in props:
        if p['id'] in meth:
            out.append('| %s | %s | %s |' % (p['id'], '; '.join(a.split('/')[-1] for a in p['anchors']), meth[p['id']]))
    out += ['', 'Status and what is missing, per property, is in `MANIFEST.json`.', '']
    out.append(open(V + '/tools/trusted.md').read().rstrip())
    out += ['', open(V + '/tools/findings.md').read().rstrip(), '']
    out += ['## 6. Which functions are modelled', '',
            'Generated from the citations in the comments of the definitions. A function counts as modelled if a definition cites lines of it;',
            'the comment of that definition says what was simplified.', '']
    for f, yes, no in coverage():
        out.append('* `%s` – modelled: %s. Not modelled: %s.' % (f, ', '.join(yes) or 'none', ', '.join(no) or 'none'))
    ax = V + '/tools/axioms.txt'
    if os.path.exists(ax):
        g = collections.defaultdict(list)
        for l in open(ax):
            n, a = l.rstrip('\n').split('\t')
            g[a].append(n)
        out += ['', '## 7. Axioms of each property theorem (`#print axioms`)', '']
        for a in sorted(g):
            out.append('* **%s**: %s' % (a or 'none', ', '.join(x.replace('Karta.', '') for x in g[a])))
    open(V + '/DESIGN.md', 'w').write('\n'.join(out) + '\n')

def axioms():
    man = json.load(open(V + '/MANIFEST.json'))['claims']
    ths = [t for c in man for t in c['theorems']]
    open('/tmp/ax.lean', 'w').write('import Verif\n' + '\n'.join('#print axioms ' + t for t in ths))
    o = subprocess.run(['lake', 'env', 'lean', '/tmp/ax.lean'], cwd=V + '/lean', capture_output=True, text=True).stdout
    o = re.sub(r'\n\s+', ' ', o)
    res = []
    for l in o.split('\n'):
        m = re.match(r"'(.*)' depends on axioms: \[(.*)\]", l)
        if m: res.append((m.group(1), m.group(2)))
        m = re.match(r"'(.*)' does not depend on any axioms", l)
        if m: res.append((m.group(1), ''))
    assert len(res) == len(ths), (len(res), len(ths))
    open(V + '/tools/axioms.txt', 'w').write(''.join('%s\t%s\n' % r for r in res))

if __name__ == '__main__':
    if 'axioms' in sys.argv: axioms()
    main()
