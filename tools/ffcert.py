#!/usr/bin/env python3
"""Writes lean/Verif/Props/FFCert.lean: for every power of five in the table that is not exact, two neighbouring fractions P/Q < P'/Q' with
Q + Q' >= 2^64 that enclose the power and its approximation in the table.  They are found with the Stern-Brocot tree; Lean checks them."""
import re
txt = open('/verif/lean/Verif/FastFloat/Table.lean').read()
nums = [int(x, 16) for x in re.findall(r'0x[0-9a-f]+', txt.split(':= [')[1])]
assert len(nums) == 1302

def norm(q):
    if q >= 0:
        b = (5 ** q).bit_length() - 1
        return 5 ** q << 127, 1 << b
    b = (5 ** -q).bit_length() - 1
    return 1 << (128 + b), 5 ** -q

def cert(a, b, c, d, n):
    p, q, p2, q2 = 0, 1, 1, 0
    while q + q2 < n:
        if (p + p2) * b <= a * (q + q2):
            t = (a * q - b * p) // (b * p2 - a * q2)
            t = min(t, max(1, (n - 1 - q) // q2 if q2 else t))
            p, q = p + t * p2, q + t * q2
        elif (p + p2) * d > c * (q + q2):
            t = (d * p2 - c * q2 - 1) // (c * q - d * p)
            t = min(t, max(1, (n - 1 - q2) // q))
            p2, q2 = p2 + t * p, q2 + t * q
        else:
            raise Exception('no certificate')
    assert p2 * q - p * q2 == 1 and q + q2 >= n and p * b <= a * q and p2 * d > c * q2
    return p, q, p2, q2

rows = []
for i, q in enumerate(range(-342, 309)):
    t = nums[2 * i] << 64 | nums[2 * i + 1]
    n, d = norm(q)
    if t * d == n:
        rows.append((0, 0, 0, 0))
        continue
    lo, hi = (n, d << 137), (t, 1 << 137)
    if lo[0] * hi[1] > hi[0] * lo[1]:
        lo, hi = hi, lo
    rows.append(cert(*lo, *hi, 1 << 64))
out = ['/-',
       'Certificates for the powers of five in the table of fast_float, written by tools/ffcert.py (data only; they are checked in FFTable.lean).',
       '-/',
       'namespace C4.FF',
       '',
       'set_option maxRecDepth 100000 in',
       '/-- `P`, `Q`, `P\'`, `Q\'` of neighbouring fractions `P/Q` and `P\'/Q\'` for the powers -342 to 308; zeros where the table is exact. -/',
       'def certs : List Nat := [']
for i, r in enumerate(rows):
    out.append('  %d, %d, %d, %d' % r + (',' if i + 1 < len(rows) else ']'))
out += ['', 'end C4.FF', '']
open('/verif/lean/Verif/Props/FFCert.lean', 'w').write('\n'.join(out))
print(max(max(r) for r in rows).bit_length())
