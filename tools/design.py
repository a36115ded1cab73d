"""Write the generated parts of DESIGN.md: the table of properties and the axioms of each theorem."""
import collections, json, re, subprocess
root = '/verif'
claims = json.load(open(root + '/MANIFEST.json'))['claims']
titles = {}
for l in open(root + '/properties.jsonl'):
    d = json.loads(l)
    titles[d['id']] = d['title']
names = [t for c in claims for t in c['theorems']]
open('/tmp/axioms.lean', 'w').write('import Verif\n' + '\n'.join('#print axioms ' + t for t in names) + '\n')
out = subprocess.run(['lake', 'env', 'lean', '/tmp/axioms.lean'], cwd=root + '/lean', capture_output=True, text=True).stdout
sets = collections.defaultdict(list)
for m in re.finditer(r"'([^']+)' (does not depend on any axioms|depends on axioms: \[([^\]]*)\])", out):
    axs = 'no axioms' if m[3] is None else ', '.join('`%s`' % x for x in sorted(x.strip() for x in m[3].split(',')))
    sets[axs].append(m[1])
assert sum(map(len, sets.values())) == len(names)
short = lambda t: t.split('.')[-1]
text = '| property | status | theorems | what is proved, what is missing |\n|---|---|---|---|\n'
for c in claims:
    text += '| %s %s | %s | %d | %s |\n' % (c['property'], titles[c['property']], c['status'], len(c['theorems']), c['note'].replace('|', '\\|'))
text += '\n## Trusted base\n\n' + open(root + '/tools/trusted.md').read()
text += '\n### Axioms of each theorem\n\n'
for axs in sorted(sets, key=lambda a: len(a)):
    text += '%s (%d theorems): %s.\n\n' % (axs, len(sets[axs]), ', '.join(short(t) for t in sets[axs]))
s = open(root + '/DESIGN.md').read()
mark = '<!-- generated by tools/design.py from here on -->\n'
s = s.split(mark)[0] + mark + '\n' + text
open(root + '/DESIGN.md', 'w').write(s)
