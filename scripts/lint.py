"""List the definitions of the model without a docstring that cites lines of /repo."""
import re, glob, sys
bad = 0
for p in sorted(glob.glob('/verif/lean/Verif/*/Model.lean') + glob.glob('/verif/lean/Verif/Dates/Civil.lean')):
    s = open(p).read()
    for m in re.finditer(r'^(?:private |noncomputable |protected )?(def|structure|inductive|abbrev|class) +(\S+)', s, re.M):
        before = s[:m.start()].rstrip()
        before = re.sub(r'(?:(?:open|set_option|attribute)[^\n]*\bin|@\[[^\n]*\])\s*$', '', before).rstrip()
        doc = ''
        if before.endswith('-/'):
            i = before.rfind('/--')
            doc = before[i:]
            if '-/' in doc[:-2]:
                doc = ''
        if not doc or not re.search(r'\.py|\b\d{2,4}(-\d{2,4})?\b', doc):
            print(p.replace('/verif/lean/Verif/', ''), m.group(2), '' if doc else '(no docstring)')
            bad += 1
print(bad, 'definitions without a citation')
