"""Plays the role of Poppler: turns a PDF file into the calls Poppler makes, one per line, for Replay.lean."""
import sys, re, math
from pdf import *
NAMES={'comma':',','period':'.','hyphen':'-','colon':':','semicolon':';','parenleft':'(','parenright':')','bracketleft':'[','bracketright':']',
'quoteright':'\u2019','quoteleft':'\u2018','quotedblright':'\u201d','quotedblleft':'\u201c','endash':'\u2013','emdash':'\u2014','slash':'/','plus':'+','equal':'=',
'zero':'0','one':'1','two':'2','three':'3','four':'4','five':'5','six':'6','seven':'7','eight':'8','nine':'9','fi':'\ufb01','fl':'\ufb02','ff':'\ufb00','ffi':'\ufb03','ffl':'\ufb04',
'exclam':'!','question':'?','ampersand':'&','percent':'%','asterisk':'*','at':'@','space':' ','asteriskmath':'\u2217','dagger':'\u2020','daggerdbl':'\u2021','section':'\u00a7','summationdisplay':'\u2211','summationtext':'\u2211',
'less':'<','greater':'>','numbersign':'#','dollar':'$','underscore':'_','bar':'|','bullet':'\u2022','minus':'\u2212','acute':'\u00b4','dieresis':'\u00a8','germandbls':'\u00df','paragraph':'\u00b6'}
def mul(a,b):
    return (a[0]*b[0]+a[1]*b[2],a[0]*b[1]+a[1]*b[3],a[2]*b[0]+a[3]*b[2],a[2]*b[1]+a[3]*b[3],a[4]*b[0]+a[5]*b[2]+b[4],a[4]*b[1]+a[5]*b[3]+b[5])
def q(x):
    x=F(x); return str(x.numerator) if x.denominator==1 else f'{x.numerator}/{x.denominator}'
def sqrt(x):
    x=F(x); n=math.isqrt(x.numerator); d=math.isqrt(x.denominator)
    if n*n==x.numerator and d*d==x.denominator: return F(n,d)
    return F(math.sqrt(x)).limit_denominator(10**12)
def hx(b): return b.hex() or '-'
def cps(s): return ','.join(str(ord(c)) for c in s) or '-'
class Font:
    def __init__(f,pdf,d,idx,ref):
        f.idx=idx; f.d=d; g=pdf.get
        f.type3=g(d['Subtype'])=='Type3'
        bf=g(d.get('BaseFont')); f.name=str(bf) if bf is not None else None
        f.addr='0x%x'%(0x5500000+idx*4096)
        fd=g(d.get('FontDescriptor')) or {}
        f.flags=g(fd.get('Flags')) or 0
        f.first=g(d['FirstChar']); f.widths=g(d['Widths'])
        f.pdf=pdf
        f.matrix=tuple(F(g(x)) for x in g(d['FontMatrix'])) if f.type3 else (F(1,1000),0,0,F(1,1000),0,0)
        f.ff=fd.get('FontFile'); enc={}
        f.file=None
        if f.ff is not None:
            fdct=pdf.o[f.ff[0]]; data=pdf.data(f.ff)
            f.file=(g(fdct.get('Length1')),g(fdct.get('Length2')),data)
            clear=data[:g(fdct['Length1'])].decode('latin1')
            for m in re.finditer(r'dup\s+(\d+)\s*/(\S+)\s+put',clear): enc[int(m.group(1))]=m.group(2)
            if 'StandardEncoding def' in clear: print('std enc!',file=sys.stderr)
        e=g(d.get('Encoding'))
        if isinstance(e,dict):
            c=0
            for x in g(e.get('Differences',[])):
                x=g(x)
                if isinstance(x,int): c=x
                else: enc[c]=str(x); c+=1
        f.enc=enc; f.tou={}
        if 'ToUnicode' in d:
            t=pdf.data(d['ToUnicode']).decode('latin1')
            for blk in re.findall(r'beginbfchar(.*?)endbfchar',t,re.S):
                for a,b in re.findall(r'<([0-9A-Fa-f]+)>\s*<([0-9A-Fa-f]+)>',blk): f.tou[int(a,16)]=bytes.fromhex(b).decode('utf-16-be')
            for blk in re.findall(r'beginbfrange(.*?)endbfrange',t,re.S):
                for a,b,c in re.findall(r'<([0-9A-Fa-f]+)>\s*<([0-9A-Fa-f]+)>\s*<([0-9A-Fa-f]+)>',blk):
                    u=bytes.fromhex(c).decode('utf-16-be')
                    for k in range(int(a,16),int(b,16)+1): f.tou[k]=u[:-1]+chr(ord(u[-1])+k-int(a,16))
    def uni(f,c):
        if c in f.tou: return f.tou[c]
        n=f.enc.get(c)
        if n is None: return ''
        if n in NAMES: return NAMES[n]
        if len(n)==1: return n
        m=re.fullmatch(r'uni([0-9A-F]{4})',n)
        if m: return chr(int(m.group(1),16))
        m=re.fullmatch(r'[A-Za-z]{0,2}(\d{1,3})',n)
        if m and f.type3: return chr(int(m.group(1)))
        print('unknown glyph name',n,file=sys.stderr); return ''
    def width(f,c):
        i=c-f.first
        w=F(f.pdf.get(f.widths[i])) if 0<=i<len(f.widths) else F(0)
        return w*f.matrix[0] if f.type3 else w/1000
class Play:
    def __init__(p,pdf): p.pdf=pdf; p.out=[]; p.fonts={}; p.flist=[]
    def font(p,ref):
        k=tuple(ref) if isinstance(ref,Ref) else id(ref)
        if k not in p.fonts:
            f=Font(p.pdf,p.pdf.get(ref),len(p.flist),ref); p.fonts[k]=f; p.flist.append(f)
        return p.fonts[k]
    def page(p,num,n,inh):
        mb=[F(p.pdf.get(x)) for x in p.pdf.get(inh['MediaBox'])]; H=mb[3]-mb[1]; W=mb[2]-mb[0]
        ctm=(F(1),F(0),F(0),F(-1),-mb[0],mb[3]); clip=(F(0),F(0),W,H)
        p.out.append(f'P {num} '+' '.join(map(q,clip)))
        c=p.pdf.get(n['Contents']); refs=c if isinstance(c,list) else [n['Contents']]
        p.run(b'\n'.join(p.pdf.data(r) for r in refs),p.pdf.get(inh['Resources']),dict(ctm=ctm,clip=clip,font=None,fs=F(0),Tc=F(0),Tw=F(0),Tz=F(1),TL=F(0),Ts=F(0)))
        p.out.append('E')
    def clipto(p,st,pts):
        t=[(x*st['ctm'][0]+y*st['ctm'][2]+st['ctm'][4],x*st['ctm'][1]+y*st['ctm'][3]+st['ctm'][5]) for x,y in pts]
        c=st['clip']; xs=[a for a,_ in t]; ys=[b for _,b in t]
        st['clip']=(max(c[0],min(xs)),max(c[1],min(ys)),min(c[2],max(xs)),min(c[3],max(ys)))
    def run(p,data,res,st):
        lx=Lexer(data); stack=[]; args=[]; path=[]; pend=None; wclip=False; cur=(0,0)
        fc=True
        tm=(F(1),F(0),F(0),F(1),F(0),F(0)); line=[F(0),F(0)]; pos=[F(0),F(0)]
        def moveto(x,y):
            line[0]=x; line[1]=y
            pos[0]=tm[0]*x+tm[2]*y+tm[4]; pos[1]=tm[1]*x+tm[3]*y+tm[5]
        def shift(tx,ty):
            pos[0]+=tx*tm[0]+ty*tm[2]; pos[1]+=tx*tm[1]+ty*tm[3]
        def endpath():
            nonlocal path,wclip
            if wclip and path: p.clipto(st,path)
            path=[]; wclip=False
        def stroke():
            if path:
                t=[(x*st['ctm'][0]+y*st['ctm'][2]+st['ctm'][4],x*st['ctm'][1]+y*st['ctm'][3]+st['ctm'][5]) for x,y in path]
                p.out.append('S '+' '.join(map(q,st['clip']))+' '+' '.join(q(a)+' '+q(b) for a,b in t))
        def show(s):
            f=st['font']; c=st['ctm']
            if p.last!=f.idx or fc: 
                p.out.append(f'F {f.idx}'); p.last=f.idx
            for ch in s:
                w=f.width(ch); u=f.uni(ch); fs=st['fs']; hz=st['Tz']
                ftm=((tm[0]*c[0]+tm[1]*c[2])*fs*hz,(tm[0]*c[1]+tm[1]*c[3])*fs*hz,(tm[2]*c[0]+tm[3]*c[2])*fs,(tm[2]*c[1]+tm[3]*c[3])*fs)
                x1,y1=tm[2]*fs,tm[3]*fs
                tfs=sqrt((c[0]*x1+c[2]*y1)**2+(c[1]*x1+c[3]*y1)**2)
                p.out.append('C '+' '.join([cps(f.enc.get(ch,'')),str(len(u)),cps(u),*map(q,ftm),q(fs),q(hz),q(st['Ts']),*map(q,tm[:4]),q(pos[0]),q(pos[1]),*map(q,c),q(tfs),*map(q,st['clip']),str(int(f.type3)),*map(q,f.matrix),q(w)]))
                dx=w*fs+st['Tc']+(st['Tw'] if ch==32 else 0)
                shift(dx*hz,0)
        p.last=None
        while True:
            lx.skip()
            if lx.p>=len(data): break
            o=lx.obj()
            if not isinstance(o,Op): args.append(o); continue
            a=args; args=[]
            if o=='q': stack.append(dict(st))
            elif o=='Q':
                if stack: st=stack.pop(); p.last=None
            elif o=='cm': st['ctm']=mul(tuple(map(F,a)),st['ctm'])
            elif o=='BT': tm=(F(1),F(0),F(0),F(1),F(0),F(0)); moveto(F(0),F(0))
            elif o=='ET': pass
            elif o=='Tf': st['font']=p.font(p.pdf.get(res['Font'])[a[0]]); st['fs']=F(a[1]); p.last=None
            elif o=='Td': moveto(line[0]+a[0],line[1]+a[1])
            elif o=='TD': st['TL']=-F(a[1]); moveto(line[0]+a[0],line[1]+a[1])
            elif o=='T*': moveto(line[0],line[1]-st['TL'])
            elif o=='Tm': tm=tuple(map(F,a)); moveto(F(0),F(0))
            elif o in('Tc','Tw','TL','Ts'): st[str(o)]=F(a[0])
            elif o=='Tz': st['Tz']=F(a[0])/100
            elif o=='Tj': fc=False; show(a[0])
            elif o=='TJ':
                fc=False
                for x in a[0]:
                    if isinstance(x,bytes): show(x)
                    else: shift(-F(x)/1000*st['fs']*st['Tz'],0)
            elif o=='m': path.append((a[0],a[1])); cur=(a[0],a[1])
            elif o=='l': path.append((a[0],a[1])); cur=(a[0],a[1])
            elif o=='c': path+= [(a[0],a[1]),(a[2],a[3]),(a[4],a[5])]; cur=(a[4],a[5])
            elif o=='v': path+= [cur,(a[0],a[1]),(a[2],a[3])]; cur=(a[2],a[3])
            elif o=='y': path+= [(a[0],a[1]),(a[2],a[3]),(a[2],a[3])]; cur=(a[2],a[3])
            elif o=='h': pass
            elif o=='re':
                x,y,w,h=a; path+=[(x,y),(x+w,y),(x+w,y+h),(x,y+h),(x,y)]
            elif o in('S','s','f','F','f*'): stroke(); endpath()
            elif o in('B','B*','b','b*'): stroke(); stroke(); endpath()
            elif o=='n': endpath()
            elif o in('W','W*'): wclip=True
            elif o=='Do':
                ref=p.pdf.get(res['XObject'])[a[0]]; d=p.pdf.get(ref)
                if d['Subtype']=='Image':
                    p.out.append('G '+' '.join(map(q,st['ctm']))+' '+' '.join(map(q,st['clip'])))
                else:
                    s2=dict(st)
                    if 'Matrix' in d: s2['ctm']=mul(tuple(F(p.pdf.get(x)) for x in p.pdf.get(d['Matrix'])),s2['ctm'])
                    b=[F(p.pdf.get(x)) for x in p.pdf.get(d['BBox'])]
                    p.clipto(s2,[(b[0],b[1]),(b[2],b[1]),(b[2],b[3]),(b[0],b[3])])
                    p.run(p.pdf.data(ref),p.pdf.get(d.get('Resources',res)),s2)
                p.last=None
            elif o=='BI':
                e=data.index(b'EI',lx.p); lx.p=e+2
            elif o in('d','J','w','g','G','rg','RG','j','M','gs','k','K','i','cs','CS','scn','SCN','sc','SC','BDC','BMC','EMC','ri'): pass
            else: print('op?',o,file=sys.stderr)
def main(path):
    pdf=Pdf(path); p=Play(pdf)
    for i,(n,inh) in enumerate(pdf.pages()): p.page(i+1,n,inh)
    for f in p.flist:
        L1,L2,data=f.file if f.file else (None,None,b'')
        print('T '+' '.join([str(f.idx),cps(f.addr),cps(f.name) if f.name is not None else 'none',str(f.flags),str(int(f.type3)),*map(q,f.matrix),'none' if L1 is None else str(L1),'none' if L2 is None else str(L2),hx(data) if f.file else 'none']))
    for l in p.out: print(l)
main(sys.argv[1])
