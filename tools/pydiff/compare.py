import pickle
from fractions import Fraction
ins,outs=pickle.load(open('/tmp/diff/exp','rb'))
got=open('/tmp/diff/out').read().split("\n")
bad={}
for i,o,g in zip(ins,outs,got):
    ok=False
    if isinstance(o,tuple) and o[0]=="F":
        try: f=float(o[1])
        except ValueError: f="err"
        if g in("err","inf","-inf","nan"): ok = (str(f)==g)
        else:
            try: ok = f!="err" and float(Fraction(g))==f
            except OverflowError: ok = f in (float('inf'),float('-inf'))
    elif isinstance(o,tuple): ok = g==o[1] or float(o[2])==0 and '-' in o[2]
    else: ok = g==o
    if not ok: bad.setdefault(i.split()[0],[]).append((i,o,g))
print(len(got),{k:len(v) for k,v in bad.items()})
for k,v in bad.items():
    for x in v[:4]: print(x)
