"""Compares the model's json.loads / json.dumps with the interpreter's on random (often damaged) texts.
Evidence of fidelity, not part of any proof.  Usage: python3 tools/json_conformance.py"""
import json, random, re, subprocess, sys, os
D = '/tmp/jt'
os.makedirs(D, exist_ok=True)
os.chdir(D)
random.seed(5)
def rv(d):
    k=random.randrange(8 if d>0 else 6)
    if k==0: return None
    if k==1: return random.choice([True,False])
    if k==2: return random.choice([0,1,-1,12,-340,10**20])
    if k==3: return random.choice([0.0,-0.0,1.5,1e16,1.5e-7,-2.25e300,float('nan'),float('inf'),-float('inf')])
    if k in(4,5): return ''.join(random.choice(['a','"','\\','\n','\r','\t','\b','\f','\x00','\x1f','\x7f','é','\u2028','😀','/','u','0']) for _ in range(random.randrange(6)))
    if k==6: return [rv(d-1) for _ in range(random.randrange(4))]
    return {rv(0) if False else random.choice('abcd"\\é'):rv(d-1) for _ in range(random.randrange(4))}
def enc(v):
    # canonical description
    if v is None: return 'N'
    if v is True: return 'T'
    if v is False: return 'F'
    if isinstance(v,int): return 'I%d'%v
    if isinstance(v,float): return 'D'+repr(v)
    if isinstance(v,str): return 'S'+'.'.join(str(ord(c)) for c in v)+';'
    if isinstance(v,list): return '['+''.join(enc(x)+',' for x in v)+']'
    return '{'+''.join(enc(k)+enc(x)+',' for k,x in v.items())+'}'
cases=[]
for i in range(1500):
    v=rv(3); ind=random.choice([None,2,4])
    t=json.dumps(v,indent=ind,ensure_ascii=random.random()<.3)
    m=random.random()
    if m<.6 and t:
        for _ in range(random.randrange(1,3)):
            j=random.randrange(len(t)+1); o=random.random()
            ch=random.choice('{}[],:"\\ \t\n\r0123456789-+.eEntfNIaul\x00\ufeff')
            t = t[:j]+t[j+1:] if o<.4 else (t[:j]+ch+t[j:] if o<.8 else t[:j])
    try: r=enc(json.loads(t))
    except json.JSONDecodeError: r='X'
    except RecursionError: r='R'
    if any(0xd800<=ord(c)<=0xdfff for c in t): continue
    if r!='X' and any(0xd800<=int(x)<=0xdfff for x in __import__('re').findall(r'\d+',r) if len(x)<7): continue
    cases.append((t,r))
with open('in.txt','w') as f:
    for t,r in cases: f.write(' '.join(str(ord(c)) for c in t)+'\n')
with open('exp.txt','w') as f:
    for t,r in cases: f.write(r+'\n')
# dumps
with open('in2.txt','w') as f, open('exp2.txt','w') as g:
    for i in range(500):
        v=rv(3); ind=random.choice([None,2,4])
        s=json.dumps(v)
        f.write(('n' if ind is None else str(ind))+' '+' '.join(str(ord(c)) for c in s)+'\n')
        g.write(' '.join(str(ord(c)) for c in json.dumps(v,indent=ind,ensure_ascii=False))+'\n')

LEAN = r'''import Verif.Model.Json
open Verif Verif.Json
partial def enc : Val → String
  | .none => "N" | .bool true => "T" | .bool false => "F" | .int n => s!"I{n}"
  | .float r => "D" ++ String.ofList r
  | .str s => "S" ++ ".".intercalate (s.map fun c => toString c.toNat) ++ ";"
  | .list l => "[" ++ String.join (l.map fun x => enc x ++ ",") ++ "]"
  | .dict d => "{" ++ String.join (d.map fun p => enc (.str p.1.toList) ++ enc p.2 ++ ",") ++ "}"
  | .opt => "O"
def rd (l : String) : Str := (l.splitOn " ").filterMap fun x => x.toNat?.map Char.ofNat
def main : IO Unit := do
  let ls ← IO.FS.lines "/tmp/jt/in.txt"
  let mut out := ""
  for l in ls do
    out := out ++ (match loads id (rd l) with | some v => enc v | none => "X") ++ "\n"
  IO.FS.writeFile "/tmp/jt/out.txt" out
  let ls2 ← IO.FS.lines "/tmp/jt/in2.txt"
  let mut out2 := ""
  for l in ls2 do
    let s := rd l
    let i := (l.splitOn " ").head!
    let s := if i = "n" then s else s.drop 1
    let ind := if i = "n" then none else i.toNat?
    match loads id s with
    | some v => out2 := out2 ++ (match dumps ind v with | some t => " ".intercalate (t.map fun c => toString c.toNat) | none => "X") ++ "\n"
    | none => out2 := out2 ++ "PARSE\n"
  IO.FS.writeFile "/tmp/jt/out2.txt" out2
'''
open('t.lean', 'w').write(LEAN)
subprocess.check_call(['lake', 'env', 'lean', '--run', '/tmp/jt/t.lean'], cwd='/verif/lean')
a=open('exp.txt').read().split('\n');b=open('out.txt').read().split('\n')
import re
bad=0
for i,(x,y) in enumerate(zip(a,b)):
    n=lambda s: re.sub(r'D([-+.0-9einfaE]+)',lambda m:'D'+repr(float(m.group(1))),s)
    if n(x)!=n(y):
        bad+=1
        if bad<10: print(i,x,y)
print(len(a),bad, sum(x=='X' for x in a))
a=open('exp2.txt').read().split('\n');b=open('out2.txt').read().split('\n')
print(len(a),sum(x!=y for x,y in zip(a,b)))
for x,y in zip(a,b):
    if x!=y: print(x,'\n',y); break
