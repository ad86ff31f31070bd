import random,io
from fractions import Fraction
random.seed(int(__import__('sys').argv[1]))
def hx(s): return ",".join(str(ord(c)) for c in s) or "x"
def hs(l): return "|".join("["+",".join(str(ord(c)) for c in s)+"]" for s in l)
WS=" \t\n\r\x0b\x0c\x1c\x1d\x1e\x1f\x85\xa0\u1680\u2000\u200a\u2028\u2029\u202f\u205f\u3000\u200b\ufeff"
AL="ab1.#;=E-+"
def rs(al,n): return "".join(random.choice(al) for _ in range(random.randint(0,n)))
ins=[];outs=[]
def add(i,o): ins.append(i); outs.append(o)
def fl(s):
    try: f=float(s)
    except ValueError: return "err"
    return f
for _ in range(3000):
    s=rs(WS+AL*3,12); add("words "+hx(s),hs(s.split()))
    add("strip "+hx(s),hs([s.strip(),s.lstrip(),s.rstrip()]))
    add("splitlines "+hx(s),hs(s.splitlines()))
    t=rs("ab\n\n",10); add("readlines "+hx(t),hs(io.StringIO(t).readlines()))
    c=random.choice("a;="); add(f"split {ord(c)} "+hx(s),hs(s.split(c))); add(f"split1 {ord(c)} "+hx(s),hs(s.split(c,1)))
    u=rs([chr(i) for i in range(128)],8); add("lower "+hx(u),hs([u.lower(),u.upper()]))
    p=rs("ab",2);v=rs("ab",8); add(f"in {hx(p)} {hx(v)}",str(p in v).lower()+str(v.startswith(p)).lower())
    w=rs("0123456789__+- .eEinfatyINFNA\u00a0\n",9) if random.random()<.7 else random.choice(["inf","nan","infinity","+inf","-nan","-Infinity","1_0","1__0","_1","1_","1e1_0","1_0e2","0x1",".","1.","+.5","-.e1","1e","1e+","١"," 12 ","\n5\t","1 2","1_000.5_0","1._5","1_.5"])
    try: i=str(int(w))
    except ValueError: i="err"
    add("int "+hx(w),i)
    add("float "+hx(w),("F",w))
    n=random.randint(-10**random.randint(0,12),10**random.randint(0,12)); wd=random.randint(0,10); add(f"fmtint {wd} {n}",hs([f"{n:{wd}d}"]))
    x=random.choice([random.uniform(-10,10),random.uniform(-1,1)*10**random.randint(-12,12),random.randint(-99,99)/2**random.randint(0,6),0.5,2.5,0.125])
    if x==0: x=1.0
    pr=random.randint(0,12); f=Fraction(x); o=f"{x:{wd}.{pr}f}"
    add(f"fmt {wd} {pr} {f.numerator} {f.denominator}",("N",hs([o]),o))
    x=random.choice([x,random.uniform(-1,1)*10**random.randint(-300,300),float(random.randint(1,10**18)),10.0**random.randint(-10,25)])
    from decimal import Decimal
    d=Decimal(repr(x)).as_tuple(); m=int("".join(map(str,d.digits))); e=d.exponent
    while m and m%10==0: m//=10; e+=1
    if m==0: e=0
    add(f"repr {d.sign} {m} {e}",hs([repr(x)]))
open('/tmp/diff/in','w').write("\n".join(ins)+"\n")
import pickle; pickle.dump((ins,outs),open('/tmp/diff/exp','wb'))
