#!/usr/bin/env python3
"""Checks that /repo's transform_bit_rate_permutations.h holds what Transform/BitRateSearch.lean's `table` defines:
every combination of bit rates, sorted by size and then lexicographically. Not part of the proofs."""
import re, itertools
base = '/repo/includes/acl/'
text = open(base + 'compression/impl/transform_bit_rate_permutations.h').read()
bits = [int(x) for x in re.findall(r'\d+', re.search(r'k_bit_rate_num_bits\[\] = \{([^}]*)\}',
        open(base + 'core/impl/variable_bit_rates.h').read()).group(1))]
for dofs in (1, 2, 3):
    body = re.search(r'k_local_bit_rate_permutations_%d_dof\[[^=]*=\s*\{(.*?)\};' % dofs, text, re.S).group(1)
    rows = [tuple(int(x) for x in r.split(',')) for r in re.findall(r'\{([^}]*)\}', body)]
    tuples = list(itertools.product(range(len(bits)), repeat=dofs))
    table = [t for size in range(32 * dofs + 1) for t in tuples if sum(bits[x] for x in t) == size]
    print(dofs, len(rows), rows == table)
