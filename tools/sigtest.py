"""Compare Sig.bindOk/Sig.callOk with the standard library on small signatures (a test, not a proof).
Run outside /verif: writes sigtest.lean, to be checked with `lake env lean` in lean/."""
import inspect, itertools
K=inspect.Parameter
kinds=[(K.POSITIONAL_ONLY,'posOnly'),(K.POSITIONAL_OR_KEYWORD,'posOrKw'),(K.VAR_POSITIONAL,'varPos'),(K.KEYWORD_ONLY,'kwOnly'),(K.VAR_KEYWORD,'varKw')]
out=[]
def src(ps):
    parts=[];seen_slash=False;star=False
    n=len(ps)
    for i,(nm,k,d) in enumerate(ps):
        if k==3 and not star and not any(p[1]==2 for p in ps): parts.append('*');star=True
        t={2:'*',4:'**'}.get(k,'')+nm+('=1' if d else '')
        parts.append(t)
        if k==0 and (i==n-1 or ps[i+1][1]!=0): parts.append('/')
    return 'lambda '+', '.join(parts)+': 0'
for n in range(0,4):
    for ks in itertools.combinations_with_replacement(range(5),n):
        if ks.count(2)>1 or ks.count(4)>1: continue
        for ds in itertools.product([0,1],repeat=n):
            if any(d and k in(2,4) for k,d in zip(ks,ds)): continue
            ps=[('abc'[i],ks[i],ds[i]) for i in range(n)]
            try: f=eval(src(ps))
            except SyntaxError: continue
            sig=inspect.signature(f)
            for na in range(0,4):
                for r in range(0,4):
                    for kw in itertools.combinations('abcz',r):
                        kd={k:0 for k in kw}
                        try: sig.bind(*[0]*na,**kd); b=True
                        except TypeError: b=False
                        try: f(*[0]*na,**kd); c=True
                        except TypeError: c=False
                        out.append((ps,na,kw,b,c))
print(len(out))
names=['posOnly','posOrKw','varPos','kwOnly','varKw']
with open('sigtest.lean','w') as fh:
    fh.write('import Verif.Model.Wrappers\nopen Fauxdoc\n')
    ch=[out[i:i+400] for i in range(0,len(out),400)]
    for j,c in enumerate(ch):
        fh.write(f'def t{j} : List (List Param × Nat × List String × Bool × Bool) := [\n')
        fh.write(',\n'.join('(['+', '.join(f'⟨"{a}",.{names[k]},{"true" if d else "false"}⟩' for a,k,d in ps)+f'],{na},['+','.join(f'"{x}"' for x in kw)+f'],{str(b).lower()},{str(cc).lower()})' for ps,na,kw,b,cc in c))
        fh.write(']\n')
    fh.write('#eval ('+' ++ '.join(f't{j}' for j in range(len(ch)))+').filter (fun (ps,n,kw,b,c) => Sig.bindOk ps n kw != b || Sig.callOk ps n kw != c) |>.length\n')
