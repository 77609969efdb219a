#!/usr/bin/env python3
"""Copy the literal tables of nbc/util/pyaes/aes.py (read as text) into Model/AesTables.lean."""
import re, os
here = os.path.dirname(os.path.abspath(__file__))
src = open('/repo/nbc/util/pyaes/aes.py').read().split('\n')
out = ['/-!', '# The tables of `nbc/util/pyaes/aes.py`', '',
       'Generated by `tools/gen_aes_tables.py` from the text of the file; the numbers are copied literally.',
       '-/', '', 'namespace NBC.Aes', '']
names = ['rcon', 'S', 'Si'] + ['T%d' % i for i in range(1, 9)] + ['U%d' % i for i in range(1, 5)]
lean = {'rcon': 'rcon', 'S': 'tableS', 'Si': 'tableSi'}
for n in names:
    for ln, line in enumerate(src, 1):
        m = re.match(r'    %s\s*=\s*\[(.*)\]\s*$' % n, line)
        if m:
            vals = [int(x, 16) for x in m.group(1).replace(' ', '').split(',') if x]
            out.append('/-- `AES.%s`, `nbc/util/pyaes/aes.py:%d` -/' % (n, ln))
            out.append('def %s : List Nat := [' % lean.get(n, 'table' + n))
            for k in range(0, len(vals), 8):
                row = ', '.join('0x%x' % v for v in vals[k:k + 8])
                out.append('  ' + row + (',' if k + 8 < len(vals) else ']'))
            out.append('')
            break
    else:
        raise SystemExit('missing ' + n)
out.append('end NBC.Aes')
open(os.path.join(here, '../lean/Verif/Model/AesTables.lean'), 'w').write('\n'.join(out) + '\n')
