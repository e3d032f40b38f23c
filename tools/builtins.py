"""Compare the models of python builtins with python itself, on random arguments.

A test, not a proof: the theorems take these models for what python does.  No code of the
project is run.  Usage, after `lake build` in lean: python3 tools/builtins.py [directory]
"""
import io
import os
import random
import re
import struct
import subprocess
import sys
from collections import Counter

root = os.path.dirname(os.path.dirname(os.path.abspath(__file__)))
work = sys.argv[1] if len(sys.argv) > 1 else '/tmp/builtins'
os.makedirs(work, exist_ok=True)

random.seed(11)
DNUMRX = r'[-+]?(?:\d+(?:\.\d*)?|\.\d+)(?:[eE][-+]?\d+)?'
CNUMRX = r'[-+]?(?:\d+(?:,\d*)?|,\d+)(?:[eE][-+]?\d+)?'
def rs(al,n): return ''.join(random.choice(al) for _ in range(random.randint(0,n)))
al=list('ab,; \t\n\r')+['\x0b','\x1c','\x85',' ']
num=list('0123')+list('.,;eE+- ')+['\t','١','x','\n']
ins=[];outs=[]
enc=lambda s: ' '.join(str(ord(c)) for c in s)
encl=lambda l: '|'.join(enc(s) for s in l)+' #%d'%len(l)
def add(op,args,out): ins.append('/'.join([op]+[enc(a) for a in args])); outs.append(out)
def esc(s): return s.replace('+',r'\+').replace('.',r'\.')
for _ in range(3000):
    s=rs(al,10); d=rs('ab; ,',2)
    add('splitws',[s],encl(s.split()))
    if d: add('splitstr',[s,d],encl(s.split(d))); add('replace',[s,d],enc(s.replace(d,'')))
    cs=rs(al,4)
    if cs: add('strip',[s,cs],enc(s.strip(cs)))
    add('lines',[s],encl(list(io.StringIO(s,newline='\n'))))
    add('universal',[s],enc(io.TextIOWrapper(io.BytesIO(s.encode('utf-8')),encoding='utf-8').read()))
    l=rs(num,12)
    for p,rx in (('.',DNUMRX),(',',CNUMRX)):
        n=re.findall(rx,l)
        m=re.search(r'(\D+)'.join(map(esc,n)),l)
        add('nums',[l,p],encl(n))
        add('seps',[l,p],encl(list(m.groups()) if m else []))
        add('rsplit',[l,p],encl(re.split(rx,l)))
    b=bytes(random.choice(b'0123_+- \t\x0b\x1cx') for _ in range(random.randint(0,5)))
    try: o=str(int(b))
    except ValueError: o='err'
    add('int',[b.decode('latin1')],o)
    b=bytes(random.choice([0,0x20,0xd8,0xdc,0xdf,0xe0,0xd7,0x41,0xff]) for _ in range(random.randint(0,8)))
    try: o=enc(b.decode('utf_16_le'))
    except UnicodeDecodeError: o='err'
    add('utf16',[b.decode('latin1')],o)
    b=bytes(random.choice([0,random.randint(0,255)]) for _ in range(6))+bytes(random.choice([[0xf0,0x7f],[0xf0,0xff],[random.randint(0,255),random.randint(0,255)],[0,0],[0x0f,0x80]]))
    x=struct.unpack('<d',b)[0]
    def sv(x):
        if isinstance(x,int): return 'i%d'%x
        if x!=x: return 'nan'
        if x in (float('inf'),-float('inf')): return 'inf '+str(x<0).lower()
        a,c=x.as_integer_ratio(); return f'{a}/{c}'
    add('dbl',[b.decode('latin1')],sv(x))
    def rv():
        k=random.randint(0,5)
        if k==0: return random.choice([0,1,-1,2,3,10**random.randint(0,320)*random.choice([1,-1])])
        if k==1: return random.choice([0.0,1.0,-1.5,float('inf'),-float('inf'),float('nan')])
        if k==2: return float(random.randint(-5,5))
        if k==3: return random.randint(-100,100)
        return random.uniform(-1,1)*10**random.randint(-300,300)
    x,y=rv(),rv()
    def st(v):
        if isinstance(v,int): return 'i%d'%v
        return 'f%d'%struct.unpack('<Q',struct.pack('<d',v))[0]
    for op in (3,4,5,6):
        try: o=sv({3:lambda:x+y,4:lambda:x-y,5:lambda:x*y,6:lambda:x/y}[op]())
        except ZeroDivisionError: o='zde'
        except OverflowError: o='ofl'
        add('arith',[str(op),st(x),st(y)],o)
    for op,f in ((9,x<y),(10,x<=y),(11,x==y),(12,x>=y),(13,x>y),(14,x!=y)):
        add('cmp',[str(op),st(x),st(y)],str(f).lower())
    try: o='i%d'%int(x)
    except OverflowError: o='ofl'
    except ValueError: o='err'
    add('toint',[st(x)],o)

fl=list('0123456789')*2+list('+-._eE,')*3+list('infatyINFATY ')+['\t','\n','\x0b','\x1c','\x1f','\x85','\xa0','\u0661','\u2003','x','\u0130']
def fv(s):
    try: return sv(float(s))
    except ValueError: return 'err'
for _ in range(5000):
    add('float',[rs(fl,7)],None)
    add('float',[repr(random.uniform(-1,1)*10**random.randint(-320,308))],None)
    add('float',[random.choice(['','+','-'])+rs('0123456789_',20)+random.choice(['','.'])+rs('0123456789_',20)+random.choice(['','e','E'])+random.choice(['','+','-'])+rs('0123456789_',3)],None)
    add('float',[random.choice(['',' ','\x1c','\u2003'])+random.choice(['','+','-'])+random.choice(['inf','Infinity','nan','NaN','infin','INF','na','infinit'])+random.choice(['',' ','\n','_'])],None)
for i,l in enumerate(ins):
    if outs[i] is None:
        outs[i]=fv(''.join(chr(int(q)) for q in l.split('/')[1].split()))

LEAN = r"""
import Verif.Model.PyFloat
import Verif.Model.PyNum
import Verif.Model.Preparse
import Verif.Model.Newlines
open CP
def dig (c : Char) : Bool := (48 ≤ c.toNat && c.toNat ≤ 57) || (0x660 ≤ c.toNat && c.toNat ≤ 0x669)
def dec (c : Char) : Option Nat :=
  if 48 ≤ c.toNat ∧ c.toNat ≤ 57 then some (c.toNat - 48)
  else if 0x660 ≤ c.toNat ∧ c.toNat ≤ 0x669 then some (c.toNat - 0x660) else none
def rdS (l : String) : List Char := ((l.splitOn " ").filterMap (·.toNat?)).map Char.ofNat
def enc (s : List Char) : String := " ".intercalate (s.map fun c => toString c.toNat)
def encl (l : List (List Char)) : String := "|".intercalate (l.map enc) ++ s!" #{l.length}"
def by' (s : List Char) : Bytes := s.map fun c => UInt8.ofNat c.toNat
def shv : Val → String
  | .nan => "nan"
  | .inf b => s!"inf {b}"
  | .int i => s!"i{i}"
  | .flt q => s!"{q.num}/{q.den}"
  | _ => "?"
def rdv (s : List Char) : Val :=
  let t := String.ofList s
  if t.startsWith "i" then .int ((t.drop 1).toInt?.getD 0) else doubleOfBits ((t.drop 1).toNat?.getD 0)
def she : Except Exc Val → String
  | .ok v => shv v
  | .error .zeroDivisionError => "zde"
  | .error .overflowError => "ofl"
  | .error _ => "err"
def P : PyOps := { rnd := f64Val, pow := fun _ _ => .error .valueError, parse := fun _ => .error .valueError, str := fun _ => [], cmpText := fun _ _ _ => false, odd := fun _ _ _ => .error .valueError }
def go (op : String) (a : List (List Char)) : String :=
  let x := a.getD 0 []
  let y := a.getD 1 []
  let z := a.getD 2 []
  match op with
  | "splitws" => encl (splitWs pySpace x)
  | "splitstr" => encl (splitStr y x)
  | "replace" => enc (replaceStr y [] x)
  | "strip" => enc (stripBy (· ∈ y) x)
  | "lines" => encl (fileLines x)
  | "universal" => enc (universal x)
  | "nums" => encl ((numRx dig (y.headD '.')).findall x)
  | "seps" => encl (((sepRx dig ((numRx dig (y.headD '.')).findall x)).search x).getD [])
  | "rsplit" => encl ((numRx dig (y.headD '.')).split x)
  | "int" => match bytesInt (by' x) with | .ok i => toString i | .error _ => "err"
  | "utf16" => match utf16le (by' x) with | .ok s => enc s | .error _ => "err"
  | "dbl" => shv (doubleOfBits (leNat (by' x)))
  | "arith" => she (pyArith P ((String.ofList x).toNat?.getD 0) (rdv y) (rdv z))
  | "cmp" => toString (pyCmp ((String.ofList x).toNat?.getD 0) (rdv y) (rdv z))
  | "toint" => match pyInt (rdv x) with | .ok i => s!"i{i}" | .error .overflowError => "ofl" | .error _ => "err"
  | "float" => match pyFloat dec x with | some v => shv v | none => "err"
  | _ => "??"
def main : IO Unit := do
  let t ← IO.FS.readFile "@DIR@/in.txt"
  for l in t.splitOn "\n" do
    match l.splitOn "/" with
    | op :: args => IO.println (go op (args.map rdS))
    | [] => pure ()
"""
with open(os.path.join(work, 'in.txt'), 'w') as f:
    f.write('\n'.join(ins) + '\n')
runner = os.path.join(work, 'Run.lean')
with open(runner, 'w') as f:
    f.write(LEAN.replace('@DIR@', work))
res = subprocess.run(['lake', 'env', 'lean', '--run', runner], cwd=os.path.join(root, 'lean'),
                     capture_output=True, text=True)
got = res.stdout.split('\n')
wrong, total = Counter(), Counter()
for line, want, have in zip(ins, outs, got):
    op = line.split('/')[0]
    total[op] += 1
    if want != have:
        wrong[op] += 1
        if wrong[op] < 4:
            print(line, 'python:', want, 'model:', have)
print(dict(total))
print('differences:', dict(wrong), '' if len(got) > len(ins) else res.stderr[-500:])
