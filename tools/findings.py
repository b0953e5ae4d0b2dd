# regenerates section 4 of DESIGN.md from the docstrings of the `_finding` theorems
import re,glob
out=[]
for f in sorted(glob.glob('/verif/lean/Verif/Props/*.lean')+glob.glob('/verif/lean/Verif/Ieee/*.lean')):
    s=open(f).read()
    for m in re.finditer(r'(?:/--((?:(?!-/).)*?)-/\s*)?theorem (C\d{2,3}_\w*finding)\b',s,re.S):
        doc=re.sub(r'\s+',' ',(m.group(1) or '').strip())
        doc=re.sub(r'^Finding: ','',doc)
        out.append((m.group(2),doc or '(see statement)'))
out.sort()
p='/verif/DESIGN.md'
s=open(p).read()
i=s.index('## 4. Findings')
s=s[:i]+'''## 4. Findings

Behaviour of the crate that contradicts its documentation or the natural law, each machine-checked
(generated from the docstrings by `tools/findings.py`):

'''+''.join(f'* `{n}` — {d}\n' for n,d in out)+'''
Findings from reading, without a theorem: the `3d` feature does not compile at this commit;
`RoundedBox2d` is not exported; `cylinder3d.rs` is not in the module tree.
'''
open(p,'w').write(s)
print(len(out),[n for n,d in out if d.startswith('(see')])
