import sys; sys.path.insert(0,'/verif/tools')
from simd_gen import tr
import re
def stmts(lines):
    txt='\n'.join(re.sub(r'//.*','',l) for l in lines)
    return [s.strip() for s in txt.split(';') if s.strip()]
def gen_round(path, ty, fn, pat='unsafe fn round(', name='round', extra='', sub=lambda e:e, sched='MSG_SCHEDULE[r]'):
    src=open(path).read().split('\n')
    i=[k for k,l in enumerate(src) if pat in l][0]
    j=i
    while src[j]!='}': j+=1
    k0=i
    while not src[k0].rstrip().endswith('{'): k0+=1
    o=[f"/-- {fn}:{i+1}-{j+1}; the elements `v[i]` of the state array are the variables `vi` -/",
       f"def {name} {extra}(v m : Vector {ty} 16) (r : Fin 7) : Vector {ty} 16 :="]
    o.append("  let p := MSG_SCHEDULE[r]" if sched=='p' else '')
    o=[x for x in o if x]
    for a in range(16): o.append(f"  let v{a} : {ty} := v.get {a}")
    for st in stmts(src[k0+1:j]):
        st=' '.join(st.split())
        l,e=st.split('=',1)
        idx=re.match(r'v\[(\d+)\]',l.strip()).group(1)
        t=tr(e).replace('(size_t)','')
        t=re.sub(r'\bv\[(\d+)\]',r'v\1',t)
        t=re.sub(r'm\[MSG_SCHEDULE\[r\]\[(\d+)\]\]',r'(m.get ((MSG_SCHEDULE.get r).get \1))',t)
        o.append(f"  let v{idx} : {ty} := {sub(t)}")
    o.append("  #v[v0, v1, v2, v3, v4, v5, v6, v7, v8, v9, v10, v11, v12, v13, v14, v15]"); o.append("")
    return '\n'.join(o)
if __name__=='__main__':
    open('/tmp/sse_round.lean','w').write(gen_round('/repo/src/sse41.rs','M128','sse41.rs'))
    open('/tmp/avx2_round.lean','w').write(gen_round('/repo/src/avx2.rs','M256','avx2.rs'))
