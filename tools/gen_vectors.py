#!/usr/bin/env python3
"""Turn the test vectors of /repo/t/test-str_to_rdata.c and /repo/t/test-rdata.c into kernel-checked examples."""
import re,sys
TYPES=dict((a,int(b)) for a,b in re.findall(r'#define\s+WDNS_TYPE_(\w+)\s+(\d+)',open('/repo/wdns/wdns.h.in').read()))
TYPES['SVCB']=TYPES.get('SVCB',64)
def unq(body):
    out=bytearray(); i=0
    while i<len(body):
        c=body[i]
        if c!='\\': out+=c.encode('latin1'); i+=1; continue
        d=body[i+1]
        if d=='x':
            m=re.match(r'[0-9a-fA-F]+',body[i+2:]); out.append(int(m.group(0),16)&255); i+=2+len(m.group(0))
        elif d in '01234567':
            m=re.match(r'[0-7]{1,3}',body[i+1:]); out.append(int(m.group(0),8)&255); i+=1+len(m.group(0))
        else:
            out.append({'n':10,'t':9,'r':13,'"':34,'\\':92,"'":39,'v':11,'f':12,'a':7,'b':8}.get(d,ord(d))); i+=2
    return bytes(out)
TOK=re.compile(r'"((?:[^"\\]|\\.)*)"|([A-Za-z_][A-Za-z_0-9]*)|(\d+)|(.)',re.S)
def toks(s):
    s=re.sub(r'/\*.*?\*/','',s,flags=re.S) if False else s
    out=[];i=0
    while i<len(s):
        if s.startswith('/*',i): i=s.index('*/',i)+2; continue
        if s.startswith('//',i): i=s.index('\n',i); continue
        if s[i].isspace(): i+=1; continue
        if s.startswith('QUOTE(',i):
            j=i+6; ins=False; dep=0
            while True:
                if ins:
                    if s[j]=='\\': j+=1
                    elif s[j]=='"': ins=False
                elif s[j]=='"': ins=True
                elif s[j]=='(': dep+=1
                elif s[j]==')':
                    if dep==0: break
                    dep-=1
                j+=1
            parts=re.split(r'("(?:[^"\\]|\\.)*")',s[i+6:j])
            raw=''.join(p if p.startswith('"') else re.sub(r'\s+',' ',p) for p in parts).strip()
            out.append(('s',raw.encode('latin1'))); i=j+1; continue
        m=TOK.match(s,i); i=m.end()
        if m.group(1) is not None: out.append(('s',unq(m.group(1))))
        elif m.group(2): out.append(('i',m.group(2)))
        elif m.group(3): out.append(('n',int(m.group(3))))
        else: out.append(('p',m.group(4)))
    return out
def entries(path,names):
    s=open(path).read(); i=s.index('tdata[] = {')+len('tdata[] = {')
    t=toks(s[i:]); res=[]; k=0
    while t[k]==('p','{'):
        k+=1; fields={}; pos=0
        while t[k]!=('p','}'):
            if t[k]==('p','.'):
                nm=t[k+1][1]; k+=3
            else: nm=names[pos]
            pos=names.index(nm)+1 if nm in names else pos
            v=None; expr=[]
            while t[k] not in (('p',','),('p','}')):
                expr.append(t[k]); k+=1
            if expr and expr[0][0]=='s': v=b''.join(e[1] for e in expr if e[0]=='s')
            elif expr and expr[0][0]=='i': v=expr[0][1]
            else: v=eval(''.join(str(e[1]) for e in expr)) if expr else None
            fields[nm]=v
            if t[k]==('p',','): k+=1
        k+=1
        if t[k]==('p',','): k+=1
        res.append(fields)
    return res
def lst(b): return '['+', '.join(str(x) for x in b)+']'
def ty(x):
    if isinstance(x,int): return x
    return TYPES[x.replace('WDNS_TYPE_','')]
def cls(x): return {'WDNS_CLASS_IN':1,'WDNS_CLASS_CH':3}.get(x,x if isinstance(x,int) else None)
RES={'wdns_res_success':'success','wdns_res_parse_error':'parseError','wdns_res_failure':'failure','wdns_res_len':'len','wdns_res_out_of_bounds':'outOfBounds','wdns_res_invalid_length_octet':'invalidLengthOctet','wdns_res_name_overflow':'nameOverflow','wdns_res_name_len':'nameLen'}
out=['import Verif.Model.FromText','','/-!','# The test vectors of t/test-str_to_rdata.c and t/test-rdata.c, run on the model','',
'Generated by tools/gen_vectors.py.  These are tests of the model (that it agrees with what the project expects of the code),','not proofs of properties.','-/','','namespace Wdns.Vectors','open Outcome','']
n1=n2=0
for e in entries('/repo/t/test-str_to_rdata.c',['input','rrtype','rrclass','expected','expected_len','expected_res']):
    if not e.get('input') : continue
    r=e.get('expected_res','wdns_res_success')
    if r==0: r='wdns_res_success'
    s=f"strToRdata {lst(e['input'])} {ty(e['rrtype'])} {cls(e['rrclass'])}"
    if r=='wdns_res_success':
        out.append(f"example : {s} = ok {lst((e.get('expected') or b'')[:e['expected_len']])} := by decide +kernel")
    else: out.append(f"example : {s} = err .{RES[r]} := by decide +kernel")
    n1+=1
for e in entries('/repo/t/test-rdata.c',['input','input_len','rrtype','rrclass','expected']):
    if e.get('expected') in (None,0): continue
    b=e['input']; n=e['input_len']; b=b+bytes([0]); b=b[:n]
    assert len(b)==n,(e,len(b))
    out.append(f"example : rdataToStr {lst(b)} {n} {ty(e['rrtype'])} {cls(e['rrclass'])} = ok {lst(e['expected'])} := by decide +kernel")
    n2+=1
out+=['','end Wdns.Vectors','']
import os
os.makedirs('/verif/lean/Verif/Tests',exist_ok=True)
# wrap long lines
txt='\n'.join(out)
open('/verif/lean/Verif/Tests/Vectors.lean','w').write(txt)
print(n1,n2)
