#!/usr/bin/env python3
"""Writes lean/Verif/FastFloat/Table.lean: the literals of power_of_five_128 copied from the header, in the order of the source."""
import re
lines = open('/repo/src/c4/ext/fast_float_all.h').read().split('\n')
first = next(i for i, l in enumerate(lines) if 'constexpr static uint64_t power_of_five_128[number_of_entries] = {' in l)
rows = []
for l in lines[first + 1:]:
    rows += re.findall(r'0x[0-9a-f]+', l)
    if '};' in l:
        break
assert len(rows) == 1302
out = ['/-',
       'The table of 128-bit powers of five of fast_float, copied literally by tools/fftable.py.',
       '-/',
       'namespace C4.FF',
       '',
       '/-- `powers_template::power_of_five_128` (/repo/src/c4/ext/fast_float_all.h:1469-2120): for the powers of five from -342 to 308 the',
       'high and the low 64 bits, one after the other. -/',
       'def powerOfFive128 : List Nat := [']
for i in range(0, len(rows), 4):
    out.append('  ' + ', '.join(rows[i:i + 4]) + (',' if i + 4 < len(rows) else ']'))
out += ['', 'end C4.FF', '']
open('/verif/lean/Verif/FastFloat/Table.lean', 'w').write('\n'.join(out))
