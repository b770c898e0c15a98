"""A minimal PDF reader: objects, object streams, content streams (enough for the test PDFs of the repository)."""
import re, zlib
from fractions import Fraction as F

class Name(str): pass
class Ref(tuple): pass
class Op(str): pass

WS=b' \t\r\n\f\0'; DELIM=b'()<>[]{}/%'
class Lexer:
    def __init__(s,b,p=0): s.b=b; s.p=p
    def skip(s):
        b=s.b
        while s.p<len(b):
            c=b[s.p]
            if c in WS: s.p+=1
            elif c==37:
                while s.p<len(b) and b[s.p] not in b'\r\n': s.p+=1
            else: break
    def obj(s):
        s.skip(); b=s.b
        if s.p>=len(b): return None
        c=b[s.p:s.p+1]
        if c==b'/':
            e=s.p+1
            while e<len(b) and b[e] not in WS+DELIM: e+=1
            n=b[s.p+1:e]; s.p=e
            n=re.sub(rb'#([0-9A-Fa-f]{2})',lambda m:bytes([int(m.group(1),16)]),n)
            return Name(n.decode('latin1'))
        if b[s.p:s.p+2]==b'<<':
            s.p+=2; d={}
            while True:
                s.skip()
                if b[s.p:s.p+2]==b'>>': s.p+=2; break
                k=s.obj(); d[str(k)]=s.val()
            return d
        if c==b'<':
            e=b.index(b'>',s.p); h=re.sub(rb'\s','',b[s.p+1:e]) if False else b''.join(b[s.p+1:e].split())
            s.p=e+1
            if len(h)%2: h+=b'0'
            return bytes.fromhex(h.decode())
        if c==b'(':
            s.p+=1; d=1; o=bytearray()
            while True:
                ch=b[s.p]; s.p+=1
                if ch==92:
                    n=b[s.p]; s.p+=1
                    m={110:10,114:13,116:9,98:8,102:12}
                    if n in m: o.append(m[n])
                    elif 48<=n<=55:
                        v=n-48
                        for _ in range(2):
                            if 48<=b[s.p]<=55: v=v*8+b[s.p]-48; s.p+=1
                            else: break
                        o.append(v&255)
                    elif n in (10,13):
                        if n==13 and b[s.p]==10: s.p+=1
                    else: o.append(n)
                    continue
                if ch==40: d+=1
                if ch==41:
                    d-=1
                    if d==0: break
                o.append(ch)
            return bytes(o)
        if c==b'[':
            s.p+=1; a=[]
            while True:
                s.skip()
                if b[s.p:s.p+1]==b']': s.p+=1; break
                a.append(s.val())
            return a
        if c in b'{}': s.p+=1; return Op(c.decode())
        e=s.p
        while e<len(b) and b[e] not in WS+DELIM: e+=1
        t=b[s.p:e].decode('latin1'); s.p=e
        if re.fullmatch(r'[+-]?\d+',t): return int(t)
        if re.fullmatch(r'[+-]?\d*\.\d*',t) and re.search(r'\d',t): return F(t if not t.endswith('.') else t+'0')
        if t=='true': return True
        if t=='false': return False
        if t=='null': return None
        return Op(t)
    def val(s):
        o=s.obj()
        if type(o) is int and o>=0:
            sv=s.p; g=s.obj()
            if type(g) is int:
                r=s.obj()
                if isinstance(r,Op) and r=='R': return Ref((o,g))
            s.p=sv
        return o

class Pdf:
    def __init__(s,path):
        s.b=open(path,'rb').read(); s.o={}; s.st={}
        for m in re.finditer(rb'(?<!\d)(\d+) (\d+) obj\b',s.b):
            lx=Lexer(s.b,m.end()); v=lx.val(); n=int(m.group(1))
            lx.skip(); s.o[n]=v
            if s.b[lx.p:lx.p+6]==b'stream':
                p=lx.p+6
                if s.b[p:p+2]==b'\r\n': p+=2
                else: p+=1
                s.st[n]=p
        for n,v in list(s.o.items()):
            if isinstance(v,dict) and v.get('Type')=='ObjStm':
                d=s.data(Ref((n,0))); lx=Lexer(d); N=s.get(v['N']); first=s.get(v['First'])
                hd=[(lx.obj(),lx.obj()) for _ in range(N)]
                for num,off in hd:
                    if num not in s.o: s.o[num]=Lexer(d,first+off).val()
        s.root=None
        for v in s.o.values():
            if isinstance(v,dict) and v.get('Type')=='Catalog': s.root=v
    def get(s,v):
        while isinstance(v,Ref): v=s.o.get(v[0])
        return v
    def raw(s,ref):
        d=s.o[ref[0]]; p=s.st[ref[0]]; L=s.get(d['Length']); return s.b[p:p+L]
    def data(s,ref):
        d=s.o[ref[0]]; r=s.raw(ref); f=s.get(d.get('Filter'))
        fs=[] if f is None else (f if isinstance(f,list) else [f])
        for x in fs:
            if x=='FlateDecode': r=zlib.decompressobj().decompress(r)
            else: return None
        return r
    def pages(s):
        out=[]
        def walk(n,inh):
            n=s.get(n); inh=dict(inh)
            for k in('Resources','MediaBox','CropBox','Rotate'):
                if k in n: inh[k]=n[k]
            if n['Type']=='Pages':
                for k in s.get(n['Kids']): walk(k,inh)
            else: out.append((n,inh))
        walk(s.root['Pages'],{}); return out
