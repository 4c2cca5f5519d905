"""Compare the three descriptions of the C interface: the exported functions of
graphrox-c/src/lib.rs, the prototypes of graphrox-c/gphrx.h and the ctypes
declarations of graphrox-py/graphrox/__init__.py.  Supports the reading of the
model (names, number, order and width of arguments and results, struct fields);
it is a check of text, not a proof.

usage: python3 abi.py [path of the repository]"""
import re
import sys

root = sys.argv[1] if len(sys.argv) > 1 else '/repo'
rust = re.sub(r'//[^\n]*', '', open(root + '/graphrox-c/src/lib.rs').read().split('#[cfg(test)]')[0])
head = re.sub(r'/\*.*?\*/|//[^\n]*', '', open(root + '/graphrox-c/gphrx.h').read(), flags=re.S)
py = open(root + '/graphrox-py/graphrox/__init__.py').read()

# every type is reduced to one of: u8 i8 u64 usize f64 void, ptr:<type>, struct:<name>
SCALAR = {'u8': 'u8', 'CBool': 'i8', 'u64': 'u64', 'usize': 'usize', 'f64': 'f64',
          'uint8_t': 'u8', 'int8_t': 'i8', 'uint64_t': 'u64', 'size_t': 'usize', 'double': 'f64', 'void': 'void',
          'c_ubyte': 'u8', 'c_uint8': 'u8', 'c_int8': 'i8', 'c_uint64': 'u64', 'c_size_t': 'usize', 'c_double': 'f64',
          'ffi::c_char': 'char', 'char': 'char', 'ffi::c_void': 'void'}


def rtype(t):
    t = t.strip()
    m = re.match(r'\*(?:mut|const) (.*)', t)
    if m:
        return 'ptr:' + rtype(m.group(1))
    return SCALAR.get(t) or 'struct:' + t


def ctype(t):
    t = t.replace('const', ' ').strip()
    if t.endswith('*'):
        return 'ptr:' + ctype(t[:-1])
    return SCALAR.get(t) or 'struct:' + t


def carg(a):
    a = a.replace('const', ' ').strip()
    m = re.match(r'(\w+)\s*(\**)\s*(\w*)$', a)
    return ctype(m.group(1) + m.group(2))


def ptype(t):
    t = t.strip().replace('ctypes.', '')
    if t == 'None':
        return 'void'
    if t == 'c_void_p':
        return 'ptr:?'
    m = re.match(r'POINTER\((.*)\)$', t)
    if m:
        return 'ptr:' + ptype(m.group(1))
    m = re.match(r'_(\w+)_c$', t)
    return 'struct:' + m.group(1) if m else SCALAR[t]


def split(s):
    out, depth, cur = [], 0, ''
    for ch in s:
        depth += (ch == '(') - (ch == ')')
        if ch == ',' and depth == 0:
            out.append(cur)
            cur = ''
        else:
            cur += ch
    return [x for x in out + [cur] if x.strip()]


R = {}
for m in re.finditer(r'#\[no_mangle\]\s*pub (?:unsafe )?extern "C" fn (\w+)\((.*?)\)(?: -> ([^{]*))?\s*\{', rust, re.S):
    R[m.group(1)] = ([rtype(a.split(':', 1)[1]) for a in split(m.group(2))], rtype(m.group(3)) if m.group(3) else 'void')
C = {}
for m in re.finditer(r'^((?:const )?\w+ \*?)\s*(\w+)\(([^)]*)\);', head, re.M):
    C[m.group(2)] = ([carg(a) for a in split(m.group(3))], ctype(m.group(1).strip()))
P = {}
for m in re.finditer(r'^_lib\.(\w+)\.argtypes = (None|\[[^\]]*\]|\((?:[^()]|\([^()]*\))*\))', py, re.M):
    a = m.group(2)
    P[m.group(1)] = [[] if a == 'None' else [ptype(x) for x in split(a[1:-1])], None]
for m in re.finditer(r'^_lib\.(\w+)\.restype = (.*)$', py, re.M):
    P[m.group(1)][1] = ptype(m.group(2))

bad = []


def same(a, b):
    return a == b or ('ptr:?' in (a, b) and a.startswith('ptr:') and b.startswith('ptr:'))


for what, other in (('gphrx.h', C), ('__init__.py', P)):
    for f in sorted(set(R) ^ set(other)):
        bad.append(f'{f}: only in {"lib.rs" if f in R else what}')
    for f in sorted(set(R) & set(other)):
        (ra, rr), (oa, orr) = R[f], other[f]
        if len(ra) != len(oa) or not all(map(same, ra, oa)) or not same(rr, orr):
            bad.append(f'{f}: lib.rs {ra} -> {rr}, {what} {oa} -> {orr}')
called = set(re.findall(r'_lib\.(\w+)\(', py))
for f in sorted(called - set(P)):
    bad.append(f'{f}: called in __init__.py without declaration')

RS = {m.group(1): [(a, rtype(b)) for a, b in re.findall(r'pub (\w+): ([^,]+),', m.group(2))]
      for m in re.finditer(r'#\[repr\(C\)\](?:\s*#\[[^\]]*\])*\s*pub struct (\w+) \{(.*?)\}', rust, re.S)}
CS = {m.group(2): [(re.match(r'.*?(\w+)$', d.strip()).group(1), carg(d)) for d in m.group(1).split(';') if d.strip()]
      for m in re.finditer(r'typedef struct \{(.*?)\} (\w+);', head, re.S)}
PS = {m.group(1): [(a, ptype(b)) for a, b in re.findall(r"\('(\w+)', ([\w.]+)\)", m.group(2))]
      for m in re.finditer(r'class _(\w+)_c\(ctypes\.Structure\):\s*_fields_ = \[(.*?)\]', py, re.S)}
for what, other in (('gphrx.h', CS), ('__init__.py', PS)):
    for s in sorted(set(RS) ^ set(other)):
        bad.append(f'struct {s}: only in {"lib.rs" if s in RS else what}')
    for s in sorted(set(RS) & set(other)):
        if [n for n, _ in RS[s]] != [n for n, _ in other[s]] or not all(same(a, b) for (_, a), (_, b) in zip(RS[s], other[s])):
            bad.append(f'struct {s}: lib.rs {RS[s]}, {what} {other[s]}')

print(len(R), 'functions in lib.rs,', len(C), 'in gphrx.h,', len(P), 'in __init__.py;', len(RS), len(CS), len(PS), 'structs')
print('\n'.join(bad) if bad else 'all descriptions agree')
