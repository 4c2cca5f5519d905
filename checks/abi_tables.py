"""The tables of lean/Verif/Model/Abi.lean are those of lib.rs, gphrx.h and __init__.py."""
import re
R=open('/repo/graphrox-c/src/lib.rs').read(); H=open('/repo/graphrox-c/gphrx.h').read(); Y=open('/repo/graphrox-py/graphrox/__init__.py').read()
def ln(s,i): return s.count('\n',0,i)+1
def rty(t):
    t=t.strip()
    if t.startswith('*mut '): return f'(.mutPtr {rty(t[5:])})'
    if t.startswith('*const '): return f'(.constPtr {rty(t[7:])})'
    d={'u8':'.u8','u64':'.u64','f64':'.f64','usize':'.usize','CBool':'.cBool','ffi::c_void':'.cVoid','ffi::c_char':'.cChar','i8':'.i8'}
    if t in d: return d[t]
    return f'(.struct "{t}")'
body=R[:R.index('#[cfg(test)]')]
fs=[]
for m in re.finditer(r'extern "C" fn (\w+)\(([^)]*)\)\s*(?:->\s*([^{]+))?\{',body):
    args=[a.split(':',1)[1] for a in re.split(r',',m.group(2)) if a.strip()]
    fs.append((m.group(1),[rty(a) for a in args],rty(m.group(3)) if m.group(3) else None,ln(R,m.start())))
def fn(n,a,r): return f'  ⟨"{n}", [{", ".join(x[1:-1] if 0 else x for x in a)}], '+(f'some {r}' if r else 'none')+'⟩'
RF=fs
st=[]
for m in re.finditer(r'#\[repr\(C\)\]\s*(?:#\[derive[^\]]*\]\s*)?pub struct (\w+) \{([^}]*)\}',body):
    st.append((m.group(1),[(x.split(':',1)[0].replace('pub','').strip(),rty(x.split(':',1)[1])) for x in m.group(2).split(',') if x.strip()]))
RS=st
def hty(t):
    t=t.strip()
    m=re.match(r'^(const )?\s*(\w+)\s*(\*?)$',t)
    c,b,p=m.groups()
    d={'uint8_t':'.uint8','int8_t':'.int8','uint64_t':'.uint64','double':'.double','size_t':'.size','char':'.char','void':'.void'}
    x=d.get(b,f'(.struct "{b}")')
    if p: return f'(.ptr {"true" if c else "false"} {x})'
    return x
Hh=re.sub(r'//.*','',H)
hs=[]
for m in re.finditer(r'typedef struct \{([^}]*)\} (\w+);',Hh):
    fl=[]
    for f in m.group(1).split(';'):
        f=f.strip()
        if not f: continue
        mm=re.match(r'(.*?)(\w+)$',f)
        fl.append((mm.group(2),hty(mm.group(1).strip().replace(' *','*').replace('* ','*'))))
    hs.append((m.group(2),fl))
Hn=re.sub(r'typedef struct \{[^}]*\} \w+;','',Hh)
hf=[]
for m in re.finditer(r'((?:const )?\w+ \*?)\s*(\w+)\(([^)]*)\);',Hn):
    ret=m.group(1).strip()
    args=[]
    for a in m.group(3).split(','):
        a=' '.join(a.split())
        if not a: continue
        mm=re.match(r'^((?:const )?\w+) ?(\*?)(\w+)?$',a)
        args.append(hty(mm.group(1)+mm.group(2)))
    r=None if ret=='void' else hty(ret.replace(' *','*'))
    hf.append((m.group(2),args,r))
def pty(t):
    t=t.strip()
    m=re.match(r'ctypes\.POINTER\((.*)\)$',t)
    if m: return f'(.pointer {pty(m.group(1))})'
    d={'ctypes.c_uint8':'.c_uint8','ctypes.c_ubyte':'.c_ubyte','ctypes.c_int8':'.c_int8','ctypes.c_uint64':'.c_uint64','ctypes.c_double':'.c_double','ctypes.c_size_t':'.c_size_t','ctypes.c_void_p':'.c_void_p'}
    if t in d: return d[t]
    assert re.match(r'_Gphrx\w+_c$',t),t
    return f'(.structure "{t}")'
ps=[]
for m in re.finditer(r'class (\w+)\(ctypes.Structure\):\s*_fields_ = \[(.*?)\]',Y,re.S):
    ps.append((m.group(1),[(a,pty(b)) for a,b in re.findall(r"\('(\w+)', (ctypes\.\w+)\)",m.group(2))]))
pf=[];at={}
for m in re.finditer(r'^_lib\.(\w+)\.argtypes = (None|\[[^\]]*\]|\((?:[^()]|\([^()]*\))*\))$',Y,re.M):
    a=m.group(2)
    if a=='None': l=[]
    else:
        a=' '.join(a[1:-1].split()); l=[pty(x) for x in a.split(', ') ]
    at[m.group(1)]=l
rs=re.findall(r'^_lib\.(\w+)\.restype = (.*)$',Y,re.M)
for n,r in rs: pf.append((n,at[n],None if r=='None' else pty(r)))
assert len(at)==len(rs)
code=Y[Y.index('class Graph:'):]
used=[]
for n in re.findall(r'_lib\.(\w+)\(',code):
    if n not in used: used.append(n)
def table(fs): return '['+',\n'.join(fn(*f[:3]) for f in fs).lstrip()+']'
def structs(st): return '['+',\n'.join('  ("%s", [%s])'%(n,', '.join(f'("{a}", {b})' for a,b in fl)) for n,fl in st).lstrip()+']'
import os
A=open(os.path.join(os.path.dirname(os.path.abspath(__file__)),'../lean/Verif/Model/Abi.lean')).read()
for t in (table(RF),table(hf),table(pf),structs(RS),structs(hs),structs(ps)): assert t in A
i=A.index('def pythonCalls'); assert re.findall(r'"(\w+)"',A[i:A.index(']',i)])==used
print(len(RF),len(hf),len(pf),len(used),'ok')
