#!/usr/bin/env python3
"""Seed one wrong program: edit a model definition in a scratch copy, rebuild, and report which claim theorems no longer hold.

usage: mutate.py spec.json   (list of {definition, file, old, new, edit, claim, expect:[ids]})
A declaration whose proof breaks gets `sorry` (in the scratch copy only) so that the build goes on; a claim theorem counts as failed
when it depends on `sorryAx` afterwards. One JSON line per mutation is printed (and appended to the file given as second argument)."""
import json, os, re, subprocess, sys
SRC, SCR = os.environ.get('MUT_SRC', '/verif/lean'), '/tmp/scratch/lean'
START = re.compile(r'^(@\[[^\]]*\] *)?(open [\w. ]+ in\s*)?(private |protected |noncomputable )*(theorem|lemma|example|def|instance|structure|inductive|abbrev)\b')

def sh(cmd, **kw):
    return subprocess.run(cmd, shell=True, capture_output=True, text=True, **kw).stdout

def reset():
    sh(f'rm -rf {SCR}; mkdir -p {SCR}; cp -a {SRC}/. {SCR}/')

def blocks(lines):
    """start indices of column-0 things"""
    return [i for i, l in enumerate(lines) if l and not l[0].isspace() and not l.startswith(('|', ')', '}'))]

def decl_at(lines, n):
    """(start, end) of the declaration containing 0-based line n"""
    bs = [i for i in blocks(lines) if START.match(lines[i])]
    start = max([b for b in bs if b <= n], default=None)
    if start is None: return None
    nxt = [b for b in blocks(lines) if b > start]
    end = nxt[0] if nxt else len(lines)
    return start, end

def sorry_out(text, n):
    lines = text.split('\n')
    d = decl_at(lines, n)
    if d is None: return None, None
    s, e = d
    body = '\n'.join(lines[s:e])
    kind = START.match(lines[s]).group(4)
    name = re.sub(START, '', lines[s]).strip().split(' ')[0].split('(')[0].split(':')[0]
    if kind == 'example':
        return '\n'.join(lines[:s] + ['example : True := trivial'] + lines[e:]), 'example'
    depth = 0
    i = 0
    pos = None
    while i < len(body):
        c = body[i]
        if c in '([{⟨': depth += 1
        elif c in ')]}⟩': depth -= 1
        elif body.startswith(':=', i) and depth == 0 and not re.search(r'\blet [^\n]*$', body[:i]):
            pos = i; break
        elif body.startswith('\n  | ', i) and depth == 0 and kind in ('theorem', 'lemma'):
            pos = i; break
        elif body.startswith(' where', i) and depth == 0 and kind in ('theorem', 'lemma'):
            pos = i; break
        i += 1
    if pos is None or kind not in ('theorem', 'lemma'): return None, name
    nl = body[pos:].count('\n')
    if 'sorry' in body[pos:pos+12]: return None, name
    return '\n'.join(lines[:s]) + '\n' + body[:pos] + ' := sorry' + '\n' * nl + '\n' + '\n'.join(lines[e:]), name

def build(targets=()):
    out = sh(f'cd {SCR} && timeout 3600 lake build {" ".join(targets)} 2>&1')
    return out

def mentioning(m):
    """modules of Props that mention the definition by name"""
    word = re.compile(r'\b' + re.escape(m['definition'].split('.')[-1]) + r'\b')
    d = f'{SCR}/Verif/Props'
    return sorted('Verif.Props.' + f[:-5] for f in os.listdir(d) if f.endswith('.lean') and word.search(open(f'{d}/{f}').read()))

def weight(module):
    """size of the module and everything of ours that it imports"""
    seen, todo, size = set(), [module], 0
    while todo:
        t = todo.pop()
        p = f'{SCR}/' + t.replace('.', '/') + '.lean'
        if t in seen or not os.path.exists(p): continue
        seen.add(t)
        text = open(p).read()
        size += len(text)
        todo += re.findall(r'^import (Verif\S*)', text, re.M)
    return size

def run(m):
    reset()
    p = f'{SCR}/Verif/{m["file"]}'
    t = open(p).read()
    if t.count(m['old']) < 1:
        return {**m, 'error': 'pattern not found'}
    if t.count(m['old']) > 1 and not m.get('all'):
        return {**m, 'error': 'pattern not unique'}
    open(p, 'w').write(t.replace(m['old'], m['new']))
    broken = []
    man = json.load(open(os.path.dirname(SRC) + '/MANIFEST.json'))
    thms = sorted({t for c in man['claims'] for t in c['theorems']})
    if os.environ.get('MUT_QUICK'):
        # first only the modules that mention the definition; all others only if nothing fails there
        targets = mentioning(m)
        if os.environ['MUT_QUICK'] == '2':
            # one module at a time, those with few dependencies first, until a claim theorem fails
            for t in sorted(targets, key=weight):
                err = fix(m, broken, [t])
                if err: return err
                failed, _ = depends(thms, [t])
                if failed: return {**m, 'failed': failed, 'broken': sorted(set(broken)), 'modules': [t], 'missing': []}
        elif targets:
            err = fix(m, broken, targets)
            if err: return err
            failed, _ = depends(thms, targets)
            if failed: return {**m, 'failed': failed, 'broken': sorted(set(broken)), 'modules': targets, 'missing': []}
    err = fix(m, broken, [])
    if err: return err
    failed, seen = depends(thms, ['Verif'])
    return {**m, 'failed': failed, 'broken': sorted(set(broken)), 'missing': sorted(set(thms) - set(seen))}

def depends(thms, modules):
    """claim theorems that depend on `sorryAx`, and those that exist"""
    open('/tmp/scratch/ax.lean', 'w').write(''.join(f'import {t}\n' for t in modules) + '\n'.join(f'#print axioms {t}' for t in thms))
    out = sh(f'cd {SCR} && timeout 1200 lake env lean /tmp/scratch/ax.lean 2>&1')
    out = re.sub(r'\n\s+', ' ', out)
    failed = [t for t in thms if re.search(r"'" + re.escape(t) + r"' depends on axioms: [^\n]*sorryAx", out)]
    return failed, [t for t in thms if f"'{t}'" in out]

def fix(m, broken, targets):
    """build, replacing the proofs that break, until the build goes through"""
    for rnd in range(40):
        out = build(targets)
        errs = re.findall(r'^error: (?:\./)?(?:\S*?)(Verif/\S+?\.lean):(\d+):\d+:', out, re.M)
        if not errs:
            if 'build failed' in out.lower() or 'error:' in out:
                return {**m, 'error': 'build: ' + out[-800:]}
            return None
        byfile = {}
        for f, l in errs: byfile.setdefault(f, set()).add(int(l) - 1)
        progress = False
        for f, ls in byfile.items():
            fp = f'{SCR}/{f}'
            for l in sorted(ls, reverse=True):
                txt = open(fp).read()
                new, name = sorry_out(txt, l)
                if new is not None:
                    open(fp, 'w').write(new); progress = True
                    broken.append(f'{os.path.basename(f)[:-5]}.{name}')
        if not progress:
            return {**m, 'error': 'stuck: ' + out[-1500:], 'broken': sorted(set(broken))}

if __name__ == '__main__':
    for m in json.load(open(sys.argv[1])):
        r = run(m)
        print(json.dumps(r, ensure_ascii=False), flush=True)
        if len(sys.argv) > 2: open(sys.argv[2], 'a').write(json.dumps(r, ensure_ascii=False) + '\n')
