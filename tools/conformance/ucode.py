# A second assembler for microcode.asm, written from the file alone: textual macro expansion, field layout
# from the `fields block_ram` block, one 48-bit word per statement.  Compares all 256 words with those of
# the Lean model (UcRun prints `encode` of every word of `rom`).
import re, os
src = open('/repo/src/sentinel/microcode.asm').read()
src = re.sub(r'//[^\n]*', '', src).replace('\\\n', ' ')
macros, rest = {}, []
for l in src.split('\n'):
    m = re.match(r'\s*#define\s+(\w+)(?:\((\w+)\))?\s+(.*?)\s*$', l)
    if m: macros[m[1]] = (m[2], m[3])
    else: rest.append(l)
text = '\n'.join(rest)
def expand(t):
    while True:
        old = t
        for n, (p, b) in macros.items():
            if p: t = re.sub(r'\b%s\(([^()]*)\)' % n, lambda m: re.sub(r'\b%s\b' % p, m[1].strip(), b), t)
            else: t = re.sub(r'\b%s\b' % n, lambda m: b, t)
        if t == old: return t
fb = re.search(r'fields block_ram:\s*\{(.*?)\n\};', text, re.S)
fields, pos = {}, 0
for d in re.findall(r'(\w+)\s*:\s*((?:enum\s*\{[^}]*\}|[^;{])*);', fb[1]):
    name, spec = d
    if m := re.match(r'enum\s*\{([^}]*)\}', spec):
        nxt, vals = 0, {}
        for it in filter(None, (x.strip() for x in m[1].split(';'))):
            if '=' in it: k, v = (x.strip() for x in it.split('=')); nxt = int(v, 0)
            else: k = it
            vals[k] = nxt; nxt += 1
        w = max(1, max(vals.values()).bit_length())
    elif spec.startswith('bool'): w, vals = 1, {'true': 1, 'false': 0}
    else: w, vals = int(re.search(r'width (\d+)', spec)[1]), {}
    m = re.search(r'origin (\d+)', spec)
    if m: assert int(m[1]) == pos
    d = re.search(r'default (\w+)', spec)[1]
    fields[name] = [pos, w, vals, d]; pos += w
assert pos <= 48, pos
labels, stmts, loc = {}, [], 0
for s in expand(text[fb.end():]).split(';'):
    s = s.strip()
    while m := re.match(r'(\w+):', s): labels[m[1]] = loc; s = s[m.end():].strip()
    if not s: continue
    if m := re.match(r'origin (\w+)$', s): loc = int(m[1], 0); continue
    stmts.append((loc, s)); loc += 1
def val(f, v):
    return f[2][v] if v in f[2] else labels[v] if v in labels and not f[2] else int(v, 0)
words = {}
for loc, s in stmts:
    cur = {n: val(f, f[3]) for n, f in fields.items()}
    for a in s.split(','):
        n, v = (x.strip() for x in a.split('=>')); cur[n] = val(fields[n], v)
        assert cur[n] < 1 << fields[n][1]
    assert loc not in words; words[loc] = sum(v << fields[n][0] for n, v in cur.items())
lean = open(os.environ.get('CONF', '/tmp/conf.run') + '/UcRun.out').read().split()
lean = [int(x) for x in lean]
assert len(lean) == 256
bad = [i for i in range(256) if lean[i] != words.get(i, 0)]
print(f'microcode: {len(words)} statements, {len(labels)} labels, {pos} bits; {256 - len(bad)} of 256 addresses agree', bad)
