"""Assembles DESIGN.md (run after lake build, for the table of axioms)."""
import glob, json, os, re, subprocess
root = os.path.join(os.path.dirname(os.path.abspath(__file__)), '..')
os.chdir(root)
out = open('tools/design_head.md').read()
props = {}
for line in open('properties.jsonl'):
    d = json.loads(line)
    props[d['id']] = d
claims = json.load(open('MANIFEST.json'))['claims']
where = {}
imports = {}
for f in sorted(glob.glob('lean/Verif/Props/*.lean')):
    src = open(f).read()
    for n in re.findall(r'^theorem (C\d\d+_\w+)', src, re.M):
        where['Verif.' + n] = os.path.basename(f)[:-5]
out += '### Models\n\n| model | code | first lines of the model |\n|---|---|---|\n'
for f in sorted(glob.glob('lean/Verif/Model/*.lean')):
    src = open(f).read()
    files = sorted(set(re.findall(r'(?:/repo/)?src/fluidimage/([\w/]+\.py)', src)))
    m = re.search(r'/-!(.*?)-/', src, re.S)
    doc = ' '.join(m.group(1).split()) if m else ''
    doc = doc.lstrip('# ')
    if len(doc) > 420:
        doc = doc[:420].rsplit(' ', 1)[0] + ' …'
    out += '| `%s` | %s | %s |\n' % (os.path.basename(f)[:-5], ', '.join(files), doc.replace('|', '\\|'))
out += '\n## Properties: what is modelled, how it is proved, what is missing\n\n'
out += 'Status of the %d properties: %d proved, %d partial.\n\n' % (
    len(claims), sum(c['status'] == 'proved' for c in claims), sum(c['status'] == 'partial' for c in claims))
plan = json.load(open('tools/plan.json'))
out += '| id | property | status | files (`Props/`) | how it is proved | disagreements and limits |\n|---|---|---|---|---|---|\n'
for c in claims:
    p = props[c['property']]
    fs = sorted({where[t] for t in c['theorems'] if t in where})
    out += '| %s | %s | %s | %s | %s | %s |\n' % (
        c['property'], p['title'], c['status'], ', '.join(fs), plan.get(c['property'], ''), c['note'].replace('|', '\\|'))
out += '''
## Wrong programs

`seeded/LOG.jsonl` has one line for each wrong program tried (definition, edit, claim, theorems that fail, theorems
tightened afterwards): %d lines.

## Axioms of the theorems

''' % sum(1 for _ in open('seeded/LOG.jsonl'))
r = subprocess.run(['tools/axioms.sh'], capture_output=True, text=True).stdout
ax = {}
for m in re.finditer(r"'([\w.]+)' (?:depends on axioms: \[(.*?)\]|does not depend)", r, re.S):
    ax.setdefault(', '.join((m.group(2) or 'none').split(', ')).replace('\n', ''), []).append(m.group(1).replace('Verif.', ''))
for k in sorted(ax, key=lambda k: len(ax[k])):
    if len(ax[k]) > 100:
        out += '* `%s`: all the others (%d theorems).\n' % (k, len(ax[k]))
    else:
        out += '* `%s`: %s.\n' % (k, ', '.join(ax[k]))
open('DESIGN.md', 'w').write(out)
