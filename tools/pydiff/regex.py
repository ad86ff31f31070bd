import random,io,re
from fractions import Fraction
random.seed(int(__import__('sys').argv[1]))
def hx(s): return ",".join(str(ord(c)) for c in s) or "x"
def hs(l): return "|".join("["+",".join(str(ord(c)) for c in s)+"]" for s in l)
def rs(al,n): return "".join(random.choice(al) for _ in range(random.randint(0,n)))
ins=[];outs=[]
def add(i,o): ins.append(i); outs.append(o)
for _ in range(4000):
    s=rs(["Iteration","Iteration ","(","(",")"," ","1","23","4","x"],9)
    m=re.search(r'Iteration *(\d+)\( *(\d+)\)',s); add("iter "+hx(s),f"{int(m[1])},{int(m[2])}" if m else "none")
    s=rs(["(sec)","(kb)",":","kBytes"," ","a","(","sec"],7)+random.choice(["","\n","kBytes\n","kBytes"])
    add("timeline "+hx(s),str(bool(re.search(r'\((sec|kb)\)',s))).lower()+str(bool(re.search(r':.*kBytes$',s))).lower())
    s=rs(": ab",10); add("runs "+hx(s),hs(re.split(r'[: ]+',s)))
    p=rs("ab",2)+"a"; s=rs("ab",12); add(f"cut {hx(p)} {hx(s)}",hs(s.split(p,1))); add(f"splitstr {hx(p)} {hx(s)}",hs(s.split(p)))
    s=rs("a\r\n\r\n\x0b\x85",10)
    add("univ "+hx(s),hs([io.TextIOWrapper(io.BytesIO(s.encode()),encoding='utf8',newline=None).read()]))
    s=rs("..TFtfab ",6); m=re.match(r'^\.?([TFtf])[A-Za-z]*\.?',s); add("bool "+hx(s),str(m.group(1).lower()=='t').lower() if m else "err")
    s=rs("--0123 .",6); m=re.match(r'^-?[0-9]+',s); add("integer "+hx(s),str(int(m.group(0))) if m else "err")
    s=rs("--00123..eE +a",9); add("floatpart "+hx(s),hs([re.search(r'^-?\d*\.?\d*[eE]?-?\d*',s).group(0)]))
    s=rs(["1.5","2"," ","\n","ab","c","\t","-3","x1"],6)
    try: v=";".join(f"{Fraction(y).numerator}/{Fraction(y).denominator}" for y in re.split(r'\s+',s.strip()) if not y.isalpha() and (float(y),1))
    except ValueError: v="err"
    add("reals "+hx(s),v)
    s=rs("==ab; \n\t",14); add("findall "+hx(s),hs([x for kv in re.findall(r'(\S+)\s*=\s*(.*?)(?=;|$)',s,flags=re.MULTILINE) for x in kv]))
    s=rs("ab \n\r\n\t\x0b\x1c\x85\u2028",12); add("empty "+hx(s),hs(re.split(re.compile(r'[\r\n]\s*[\r\n]'),s)))
    k=random.choice(["NSW","NELM","IBRION"]); s=rs(["  "," ","NSW","NELM","IBRION","=","= ","1","-","23","-5"],8); m=re.match(r'^ +'+k+r' *= *([-0-9]+)',s); add(f"param {hx(k)} {hx(s)}",hs([m.group(1)]) if m else "none")
    s=rs("1234..ab ",12); m=re.compile(r'(\d+)\.(\d+)\.(\d+)').search(s.strip()); add("version "+hx(s),hs([m.group(0)]) if m else "err")
    s=rs([chr(i) for i in range(128)],6); add("cap "+hx(s),hs([s.capitalize()]))
open('/tmp/diff/in','w').write("\n".join(ins)+"\n")
import pickle; pickle.dump((ins,outs),open('/tmp/diff/exp','wb'))
