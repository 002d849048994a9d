#!/bin/sh
# Writes AXIOMS.md: the axioms that each property theorem depends on.  Run after `lake build`.
cd "$(dirname "$0")/../lean" || exit 1
python3 - <<'PY'
import re,glob,subprocess,os
names=[]; mods=[]
for f in sorted(glob.glob('Verif/*/Props*.lean')):
    s=open(f).read()
    ns=re.search(r'^namespace (\S+)',s,re.M).group(1)
    t=re.findall(r'^theorem (C\d\d\S*)',s,re.M)
    if t:
        mods.append(f[:-5].replace('/','.')); names+=[ns+'.'+x for x in t]
src=''.join('import %s\n'%m for m in mods)+''.join('#print axioms %s\n'%n for n in names)
open('/tmp/axioms.lean','w').write(src)
out=subprocess.run(['lake','env','lean','/tmp/axioms.lean'],capture_output=True,text=True).stdout
out=re.sub(r'\n\s+',' ',out)
ax={}
for l in out.splitlines():
    m=re.match(r"'(\S+)' (depends on axioms: \[(.*)\]|does not depend on any axioms)",l)
    if m: ax[m.group(1)]=m.group(3) or 'none'
with open('../AXIOMS.md','w') as o:
    o.write('# Axioms of the property theorems\n\nGenerated by tools/axioms.sh.\n\n| theorem | axioms |\n|---|---|\n')
    for n in names: o.write('| `%s` | %s |\n'%(n,ax.get(n,'?')))
print(len(names),'theorems;',sorted(set(ax.values())),[n for n in names if n not in ax])
PY
