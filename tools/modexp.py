"""Generate lean/Verif/Model/ModExp.lean's instruction lists from contracts/libs/ModExp.sol."""
import re
src = open('/repo/contracts/libs/ModExp.sol').read().split('\n')
libs = {}
cur = None
for ln, l in enumerate(src, 1):
    m = re.match(r'library (\w+)', l)
    if m:
        cur = m.group(1); libs[cur] = dict(ins=[], arg=None, ret=None, lines=[])
    m = re.search(r'function run\(uint256 t(\d+)\).*returns \(uint256 t(\d+)\)', l)
    if m: libs[cur]['arg'], libs[cur]['ret'] = int(m.group(1)), int(m.group(2))
    m = re.search(r't(\d+) := mulmod\(t(\d+), t(\d+), n\)', l)
    if m:
        libs[cur]['ins'].append(tuple(map(int, m.groups()))); libs[cur]['lines'].append(ln)
    elif ':=' in l: assert 'n' in src[ln-2] and '0x3064' in l, (ln, l)
for n in libs: 
    assert sum(':= mulmod' in l for l in src) == sum(len(v['ins']) for v in libs.values())
out = []
names = {'ModexpInverse': 'inverseProg', 'ModexpSqrt': 'sqrtProg'}
for n, v in libs.items():
    assert v['ret'] == 0
    a, b = v['lines'][0], v['lines'][-1]
    out.append(f"/-- The assembly of `{n}.run`, contracts/libs/ModExp.sol:{a}-{b}; the argument is `t{v['arg']}`, the\nresult `t0`. -/\ndef {names[n]} : List Instr :=")
    items = ['⟨%d, %d, %d⟩' % i for i in v['ins']]
    lines = []; 
    for k in range(0, len(items), 8): lines.append('    ' + ', '.join(items[k:k+8]))
    s = ',\n'.join(lines)
    out.append('  [' + s.lstrip() + ']\n')
    # check
    e = {v['arg']: 1}
    for d, x, y in v['ins']: e[d] = e[x] + e[y]
    q = 21888242871839275222246405745257275088696311157297823662689037894645226208583
    print(n, v['arg'], len(v['ins']), e[0] == q-2, e[0] == (q+1)//4)
head = '''import Verif.Model.Evm

/-!
The addition chains of contracts/libs/ModExp.sol.  The instruction lists are generated from the
source by /verif/tools/modexp.py.
-/

namespace Verif.ModExp

/-- One line `t_dst := mulmod(t_a, t_b, n)` of contracts/libs/ModExp.sol. -/
structure Instr where
  dst : ℕ
  a : ℕ
  b : ℕ

/-- The constant `n`, contracts/libs/ModExp.sol:18-20 and 343-345. -/
def n : Word := 0x30644e72e131a029b85045b68181585d97816a916871ca8d3c208c16d87cfd47

/-- Registers `t0 .. t8`; variables not assigned yet are zero. -/
abbrev Regs : Type := List Word

/-- Execution of one line. -/
def step (regs : Regs) (i : Instr) : Regs :=
  regs.set i.dst (mulmod (regs.getD i.a 0) (regs.getD i.b 0) n)

/-- Initial registers: only the argument is set. -/
def init (arg : ℕ) (x : Word) : Regs := (List.replicate 9 (0 : Word)).set arg x

'''
tail = '''
/-- `ModexpInverse.run`, contracts/libs/ModExp.sol:14-331. -/
def inverse (x : Word) : Word := (inverseProg.foldl step (init 2 x)).getD 0 0

/-- `ModexpSqrt.run`, contracts/libs/ModExp.sol:339-654. -/
def sqrt (x : Word) : Word := (sqrtProg.foldl step (init 6 x)).getD 0 0

end Verif.ModExp
'''
open('/verif/lean/Verif/Model/ModExp.lean', 'w').write(head + '\n'.join(out) + tail)
