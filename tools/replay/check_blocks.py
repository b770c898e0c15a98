import re,sys,collections
out=sys.argv[1]; test='/repo/test/utils/TextBlocksDetectionUtilsTest.cpp'
lines={};blocks={};fn={};blocklines=collections.defaultdict(list);margins={};created={};lineno={}
for l in open(out):
    if l.startswith('line '):
        m=re.match(r'line (\d+) (\d+) rank (\d+) .*? fs \S+ parent \S+ prev \S+ next \S+ (.*)\n',l)
        lines[int(m[1]),int(m[2])]=m[4]; lineno[int(m[3])]=(int(m[1]),int(m[2]))
    elif l.startswith('block '):
        m=re.match(r'block (\d+) (\d+) (.*?) lines \[(.*?)\] (.*)\n',l)
        blocks[int(m[1]),int(m[2])]=(m[5],m[3],[int(x) for x in m[4].split(',')])
    elif l.startswith('fn '):
        _,k,arg,f,v=l.rstrip('\n').split(' ',4)
        fn[int(k),arg,f]=v
ok=bad=skip=0
def chk(c,msg):
    global ok,bad
    if c: ok+=1
    else: bad+=1; print('MISMATCH',msg)
page=None;vars={};res={}
for ln in open(test):
    ln=ln.strip()
    if ln.startswith('//'): continue
    m=re.match(r'PdfPage\* page = pdf->pages\[(\d+)\]',ln)
    if m: page=int(m[1]);vars={};continue
    m=re.match(r'PdfText(Line|Block)\* (\w+) = page->(textLines|blocks)\[(\d+)\]',ln)
    if m: vars[m[2]]=(m[1].lower(),int(m[4]));continue
    if not ln.startswith('ASSERT'):
        m=re.match(r'utils.computePotentialFootnoteLabels\((\w+), &(\w+)\)',ln)
        if m: res[m[2]]=fn[page,'line%d'%vars[m[1]][1],'computePotentialFootnoteLabels'].strip('[]').split(', ') if fn[page,'line%d'%vars[m[1]][1],'computePotentialFootnoteLabels']!='[]' else []
        continue
    m=re.match(r'ASSERT_(TRUE|FALSE)\((\w+)->text\.(starts_with|ends_with)\("(.*)"\)\)',ln)
    if m:
        k,i=vars[m[2]]; t=lines[page,i] if k=='line' else blocks[page,i][0]
        chk(t.startswith(m[4]) if m[3]=='starts_with' else t.endswith(m[4]),ln+' GOT '+t[:60]+' ... '+t[-50:]);continue
    m=re.match(r'ASSERT_EQ\((\w+)->text, "(.*)"\)',ln)
    if m: chk(lines[page,vars[m[1]][1]]==m[2],ln);continue
    m=re.match(r'ASSERT_(TRUE|FALSE)\(utils\.(\w+)\(([\w, &]+)\)\)',ln)
    if m:
        args=[a.strip().strip('&') for a in m[3].split(',')]
        if all(a in vars or a=='footnoteLabels' for a in args):
            key=','.join(a if a=='footnoteLabels' else '%s%d'%vars[a] for a in args)
            chk(fn[page,key,m[2]]==m[1].lower(),ln+' GOT '+fn[page,key,m[2]]);continue
    m=re.match(r'ASSERT_NEAR\(utils\.computeHangingIndent\((\w+)\), ([\d.]+), TOL\)',ln)
    if m: v=float(fn[page,'block%d'%vars[m[1]][1],'computeHangingIndent'].split()[0]); chk(abs(v-float(m[2]))<1e-4,ln+' GOT %f'%v);continue
    m=re.match(r'ASSERT_NEAR\((\w+)->lines\[(\d+)\]->(left|right)Margin, ([-\d.]+), TOL\)',ln)
    if m:
        b=blocks[page,vars[m[1]][1]]
        kk,ii=lineno[b[2][int(m[2])]]
        v=float(fn[kk,'line%d'%ii,'margins'].split()[0 if m[3]=='left' else 1])
        chk(abs(v-float(m[4]))<1e-4,ln+' GOT %f'%v);continue
    m=re.match(r'ASSERT_EQ\((result\d)\.size\(\), .*\((\d)\)\)',ln)
    if m and m[1] in res: chk(len(set(res[m[1]]))==int(m[2]),ln+str(res[m[1]]));continue
    m=re.match(r'ASSERT_TRUE\((result\d)\.contains\("(.*)"\)\)',ln)
    if m: chk(m[2] in res[m[1]],ln+str(res[m[1]]));continue
    skip+=1; print('skip',page,ln)
print('ok',ok,'bad',bad,'skip',skip)
