# Generates lean/Verif/UnitTests.lean from the unit tests in /repo/test/utils.
import re
T='/repo/test/utils/'
out=[]
def q(s):
    s=s.strip()
    if s=='TOL': return 'tol'
    m=re.fullmatch(r'(\d+)/(\d+)\.',s)
    if m: return f'({m[1]}/{m[2]})'
    return f'({s})' if s.startswith('-') else s
cnt=0
def ex(line,stmt):
    global cnt
    cnt+=1
    out.append(f'example : {stmt} := by decide +kernel')
def head(t): out.append(f'\n/-! {t} -/\n')
# ---- math
src=open(T+'MathUtilsTest.cpp').read().split('\n')
cur=None
for i,l in enumerate(src,1):
    m=re.match(r'TEST\(MathUtilsTest, (\w+)\)',l)
    if m: head(f'`/repo/test/utils/MathUtilsTest.cpp:{i}`, `{m[1]}`.')
    m=re.match(r'\s*ASSERT_(TRUE|FALSE)\((\w+)\((.*)\)\);',l)
    if m:
        a=[q(x) for x in m[3].split(',')]
        n=3 if m[2]=='between' else 2
        if len(a)==n: a.append('tol')
        ex(i,f"Math.{m[2]} {' '.join(a)} = {m[1].lower()}")
    m=re.match(r'\s*ASSERT_NEAR\((\w+)\((.*)\), (.*), TOL\);',l)
    if m:
        a=[q(x) for x in m[2].split(',')]
        f={'round':'roundTo'}.get(m[1],m[1]+({3:'3',4:'4'}.get(len(a),'')))
        ex(i,f"Math.equal (Math.{f} {' '.join(a)}) {q(m[3])} tol = true")
# ---- elements
src=open(T+'PdfElementsUtilsTest.cpp').read().split('\n')
words={}; call=None
skip=False
for i,l in enumerate(src,1):
    m=re.match(r'TEST\(PdfElementsUtilsTest, (\w+)\)',l)
    if m:
        words={}
        skip = m[1] in('computeHasEqualFont','computeHasEqualFontSize')
        if not skip: head(f'`/repo/test/utils/PdfElementsUtilsTest.cpp:{i}`, `{m[1]}`.')
    if skip: continue
    m=re.match(r'\s*PdfWord (\w+)\((.*)\);',l)
    if m: words[m[1]]='(el '+' '.join(q(x) for x in m[2].split(','))+')'
    def arg(x):
        x=x.strip()
        return words[x[1:]] if x.startswith('&') else q(x)
    m=re.match(r'\s*ASSERT_(TRUE|FALSE)\((\w+)\((.*)\)\);',l)
    if m: ex(i,f"Elements.{m[2]} {' '.join(arg(x) for x in m[3].split(','))} = {m[1].lower()}")
    m=re.match(r'\s*ASSERT_NEAR\((compute\w+)\((.*)\), (.*), TOL\);',l)
    if m: ex(i,f"Math.equal (Elements.{m[1]} {' '.join(arg(x) for x in m[2].split(','))}) {q(m[3])} tol = true")
    m=re.match(r'\s*(?:pair<double, double> )?(?:ratios|pair) = (\w+)\((.*)\);',l)
    if m: call=f"(Elements.{m[1]} {' '.join(arg(x) for x in m[2].split(','))})"
    m=re.match(r'\s*ASSERT_NEAR\((?:ratios|pair)\.(first|second), (.*), TOL\);',l)
    if m: ex(i,f"Math.equal {call}.{'1' if m[1]=='first' else '2'} {q(m[2])} tol = true")
# ---- text
def s(x): return '[' + ', '.join("'"+{'"':'"','\n':'\\n','\t':'\\t','\\':'\\\\',"'":"\\'"}.get(c,c)+"'" for c in x)+']'
def lit(x):
    m=re.fullmatch(r'L?"(.*)"',x.strip()); b=m[1]
    return b.replace('\\\\','\0').replace('\\"','"').replace('\\t','\t').replace('\\n','\n').replace('\0','\\')
STR=r'L?"(?:[^"\\]|\\.)*"'
src=open(T+'TextUtilsTest.cpp').read().split('\n')
var={}
i0=None
pend=None
def flush():
    global pend
    if pend:
        ex(0,f"Text.splitIntoWords (fun c => {pend[1]}.contains c) {s(pend[0])} = [{', '.join(s(x) for x in pend[2])}]")
    pend=None
vals={}
for i,l in enumerate(src,1):
    m=re.match(r'TEST\(TextUtilsTest, (\w+)\)',l)
    if m:
        flush(); head(f'`/repo/test/utils/TextUtilsTest.cpp:{i}`, `{m[1]}`.'); vals={}
    m=re.match(rf'\s*wstring (\w+) = ({STR});',l)
    if m: vals[m[1]]=lit(m[2])
    m=re.match(rf'\s*splitIntoWords\((\w+|{STR}), &\w+(?:, ({STR}))?\);',l)
    if m:
        flush()
        t=vals[m[1]] if m[1] in vals else lit(m[1])
        pend=[t, s(lit(m[2])) if m[2] else 'Text.wordDelimiters', []]
    m=re.match(rf'\s*ASSERT_EQ\(words\d\[\d\], ({STR})\);',l)
    if m: pend[2].append(lit(m[1]))
    m=re.match(rf'\s*ASSERT_(TRUE|FALSE)\((\w+)\(({STR})(?:, ({STR}))?\)\);',l)
    if m:
        ex(i,f"Text.{m[2]} {s(lit(m[3]))}{' '+s(lit(m[4])) if m[4] else ''} = {m[1].lower()}")
    m=re.match(rf'\s*string (s\d) = (\w+)\((.*)\);',l)
    if m: vals[m[1]]=(m[2],m[3])
    m=re.match(rf'\s*ASSERT_EQ\((s\d), ({STR})\);',l)
    if m:
        f,a=vals[m[1]]; e=s(lit(m[2]))
        if f=='escapeJson': ex(i,f"Text.escapeJson {s(lit(a))} = {e}")
        elif f in('shorten','wrap'):
            mm=re.match(rf'({STR}), (.*)',a); ex(i,f"Text.{f} {s(lit(mm[1]))} {mm[2].replace(',','')} = {e}")
        elif f=='strip':
            if lit(a)=='':
                out.append('-- The test expects "" here; `strip` reads the byte before the begin of an empty text, which\n-- the model reports as undefined behaviour.')
                ex(i,"Text.strip [] matches .ub _") if False else out.append('example : ∃ w, Text.strip [] = .ub w := ⟨_, rfl⟩')
            else: ex(i,f"Text.strip {s(lit(a))} = .ok {e}")
        elif f=='join':
            mm=re.match(rf'\{{(.*)\}}, ({STR})',a)
            ex(i,f"Text.join [{', '.join(s(lit(x)) for x in re.findall(STR,mm[1]))}] {s(lit(mm[2]))} = {e}")
        elif f=='createRandomString':
            parts=re.findall(STR,a)
            n=re.match(r'\d+',a)[0]
            out.append(f"example (rand : ℕ → ℕ) : Text.createRandomString rand {n} {s(lit(parts[0])) if parts else '[]'} Text.alphaNum = .ok {e} := rfl"); cnt+=1
flush()
# ---- counters: every order of the entries
src=open(T+'CounterTest.cpp').read().split('\n')
import itertools
kind=None
ids={}
for i,l in enumerate(src,1):
    m=re.match(r'TEST\((Double|String)CounterTest, (\w+)\)',l)
    if m:
        kind=m[1]; c={}; head(f'`/repo/test/utils/CounterTest.cpp:{i}`, `{kind}Counter::{m[2]}` (in every order in which the hash table may list the entries).')
    m=re.match(r'\s*counter\[(.*?)\]\s*(=|\+=|-=|\+\+|--)\s*(\d*);',l)
    if m:
        k=m[1]; v=int(m[3] or 1)
        c[k]= v if m[2]=='=' else c.get(k,0)+v if m[2] in('+=','++') else c[k]-v
    dfl='0' if kind=='Double' else '[]'
    K=(lambda k:q(k)) if kind=='Double' else (lambda k:s(lit(k)))
    ty='ℚ' if kind=='Double' else 'Text.Str'
    def allorders(prop):
        es='['+', '.join(f'({K(k)}, {v})' for k,v in c.items())+']'
        return f"∀ es ∈ perms ({es} : Counter.Entries {ty}), {prop}"
    m=re.match(r'\s*ASSERT_THROW\(counter\.(\w+)\(\), runtime_error\);',l)
    f=None
    if m:
        d='' if m[1]=='max' else dfl+' '
        ex(i,allorders(f"throws (Counter.{m[1]} {d}es) = true"))
    m=re.match(r'\s*ASSERT_(?:NEAR|EQ)\(counter\.(\w+)\(\), (.*?)(?:, TOL)?\);',l)
    if m:
        v=m[2].rstrip('U')
        if m[1]=='sumCounts': ex(i,allorders(f"Counter.sumCounts es = {v}"))
        else:
            d='' if m[1]=='max' else dfl+' '
            vv = v if m[1]=='mostFreqCount' else K(v)
            ex(i,allorders(f"Counter.{m[1]} {d}es = .ok {vv}"))
    m=re.match(r'\s*ASSERT_(?:NEAR|EQ)\(entry\.first, (.*?)(?:, TOL)?\);',l)
    if m: first=K(m[1])
    m=re.match(r'\s*ASSERT_EQ\(entry\.second, (\d+)\);',l)
    if m: ex(i,allorders(f"Counter.mostFreqAndCount {dfl} es = .ok ({first}, {m[1]})"))
# ---- comparators
src=open(T+'ComparatorsTest.cpp').read().split('\n')
defs={}
for i,l in enumerate(src,1):
    m=re.match(r'static Pdf\w+ (\w+)\((.*)\);',l)
    if m: defs[m[1]]='(el '+' '.join(q(x) for x in m[2].split(','))+')'
    m=re.match(r'TEST\(ComparatorsTest, (\w+)\)',l)
    if m:
        head(f'`/repo/test/utils/ComparatorsTest.cpp:{i}`, `{m[1]}`: any order that is sorted is the expected one.'); f=m[1].replace('Comparator',''); f=f[0].lower()+f[1:]; acc=[]
    m=re.match(r'\s*ASSERT_EQ\((chars|words)\[\d\], &(\w+)\);',l)
    if m:
        acc.append(defs[m[2]])
        if len(acc)==(5 if m[1]=='chars' else 4):
            ex(i,f"sortsTo Comparators.{f} [{', '.join(acc)}] = true"); acc=[]
# ---- log
src=open(T+'LogTest.cpp').read().split('\n')
lg='{ logLevel := .trace }'
on=False
for i,l in enumerate(src,1):
    m=re.match(r'TEST\(LogTest, (\w+)\)',l)
    if m:
        on=m[1]=='getostream'
        if on: head(f'`/repo/test/utils/LogTest.cpp:{i}`, `getostream`.')
    if not on: continue
    m=re.match(r'\s*logger\.setLogLevel\((\w+)\);',l)
    if m: lg=f'(Log.setLogLevel {lg} .{m[1].lower()})'
    m=re.match(r'\s*logger\.setPageFilter\((\d+)\);',l)
    if m: lg=f'(Log.setPageFilter {lg} {m[1]})'
    m=re.match(r'\s*ASSERT_EQ\(logger\.getostream\((\w+)(?:, (\d))?\)\.rdbuf\(\), (.*)\);',l)
    if m: ex(i,f"Log.getostream {lg} .{m[1].lower()} {m[2] or '(-1)'} = {'true' if 'cout' in m[3] else 'false'}")
# ---- PQ
src=open(T+'FixedCapacityPriorityQueueTest.cpp').read().split('\n')
test=None; ops=[]
def run():
    return ''.join(ops)
for i,l in enumerate(src,1):
    m=re.match(r'TEST\(FixedCapacityPriorityQueueTest, (\w+)\)',l)
    if m:
        test=m[1]; ops=[]
        if test!='constructor': head(f'`/repo/test/utils/FixedCapacityPriorityQueueTest.cpp:{i}`, `{test}`.')
    if test in(None,'constructor'): continue
    cap=3 if test=='pushPopInt' else 4
    isint=test!='pushPopString'
    V=(lambda x:x) if isint else (lambda x:s(x))
    pt='minTop' if isint else 'maxTopStr'
    m=re.match(r'\s*queue\.push\((\w+)\);',l)
    if m: ops.append(f'.push {V(m[1])}')
    if re.match(r'\s*queue\.pop\(\);',l): ops.append('.pop')
    R=f"play {pt} {cap} [{', '.join(ops)}]"
    m=re.match(r'\s*ASSERT_EQ\(queue\.size\(\), static_cast<unsigned int>\((\d)\)\);',l)
    if m: ex(i,f"({R}).map List.length = some {m[1]}")
    m=re.match(r'\s*ASSERT_EQ\(queue\.top\(\), (\w+)\);',l)
    if m: ex(i,f"(({R}).bind {pt}).map (·.1) = some {V(m[1])}")
    m=re.match(r'\s*queue\.sort\(Int(Asc|Desc)Comparator\(\), &sorted\);',l)
    if m:
        if len(ops) and 'sorted' : pass
        direction=m[1]; exp=[]
        need=None
    m=re.match(r'\s*ASSERT_EQ\(sorted\.size\(\), static_cast<unsigned int>\((\d)\)\);',l)
    if m: need=int(m[1]); exp=[]
    m2=re.match(r'\s*ASSERT_EQ\(sorted\[\d\], (\d)\);',l)
    if m2: exp.append(m2[1])
    if (m or m2) and len(exp)==need:
        srt='(fun l => l.insertionSort (fun a b => a ≤ b))' if direction=='Asc' else '(fun l => l.insertionSort (fun a b => b ≤ a))'
        ex(i,f"({R}).map (PQ.sort {srt}) = some [{', '.join(exp)}]")
# ---- item labels (the lines whose label is not a superscript)
src=open(T+'TextBlocksDetectionUtilsTest.cpp').read().split('\n')
head('`/repo/test/utils/TextBlocksDetectionUtilsTest.cpp:610`, `computeIsPrefixedByItemLabel`: the lines that do not start with a\nsuperscript, for which the answer is that of the regular expressions (texts as bytes).')
texts={}
for i,l in enumerate(src,1):
    if not 610<=i<=706: continue
    m=re.match(r'\s*ASSERT_TRUE\((line\d+)->text\.starts_with\("(.*)"\)\);',l)
    if m: texts[m[1]]=m[2]
    m=re.match(r'\s*ASSERT_(TRUE|FALSE)\(utils\.computeIsPrefixedByItemLabel\((line\d+)\)\);',l)
    if m and m[2] not in('line2','line3','line4','line5','line6'):
        ex(i,f"ItemLabel.matchesItemRegex {s(texts[m[2]])} = {m[1].lower()}")
head('`/repo/test/utils/PageSegmentationUtilsTest.cpp:34`, `createPageSegment`.')
ex(0,"(PageSegmentation.createPageSegment []).pos = ({ pageNum := -1, leftX := dblMax, upperY := dblMax, rightX := dblMin, lowerY := dblMin } : Box)")
W="[⟨.word, 1, el 3 20.0 720.0 24.5 725.0 0 0, -1⟩, ⟨.word, 2, el 3 25.0 719.1 27.8 724.9 0 0, -1⟩,\n      ⟨.word, 3, el 3 28.2 720.0 32.5 724.9 0 0, -1⟩, ⟨.word, 4, el 3 33.0 720.1 37.7 724.8 0 0, -1⟩]"
ex(0,f"(PageSegmentation.createPageSegment\n    {W}).pos =\n    el 3 20.0 719.1 37.7 725.0 0 0")
ex(0,f"(PageSegmentation.createPageSegment\n    {W}).elements.map (·.uid) = [1, 2, 3, 4]")

print(cnt)
pre='''import Verif.Model.Math
import Verif.Model.Box
import Verif.Model.Text
import Verif.Model.Counter
import Verif.Model.PriorityQueue
import Verif.Model.Log
import Verif.Model.PageSegmentation
import Verif.Model.ItemLabel
import Mathlib.Data.List.Sort

/-!
# The repository's own unit tests, run against the model

Not theorems about all inputs: every assertion of `/repo/test/utils` that does not need a PDF file,
transcribed one by one and evaluated in the kernel on the model's definitions.  They do not establish
any property; they check that the model answers as the authors of the program say the code does.
(Assertions on null pointers, which the model's types exclude, are left out.  `ASSERT_NEAR(x, y, TOL)`
becomes `equal x y tol`.)
-/

namespace Verif.UnitTests

open Verif.Math

/-- A word or character at a place, the constructors `/repo/src/Types.cpp:193-202, 245-254` with the arguments in the
order of the test (page, left, upper, right, lower, rotation, writing mode). -/
def el (page : ℤ) (l u r b : ℚ) (rot wm : ℤ) : Box :=
  { pageNum := page, leftX := l, upperY := u, rightX := r, lowerY := b, rotation := rot, wMode := wm }

/-- All orders of a list (the iteration order of the hash table behind the counters is not fixed). -/
def perms {α : Type} : List α → List (List α)
  | [] => [[]]
  | a :: as => (perms as).flatMap fun l => (List.range (l.length + 1)).map fun i => l.insertIdx i a

/-- Whether a call ended with an exception. -/
def throws {α : Type} : Outcome α → Bool
  | .throw _ => true
  | _ => false

/-- The list is the only sorted order of its elements: each is strictly before every later one. -/
def sortsTo (lt : Box → Box → Bool) : List Box → Bool
  | [] => true
  | a :: as => as.all (fun b => lt a b && !lt b a) && sortsTo lt as

/-- The smallest element and the others, what a heap with the "descending" comparator of the tests
gives. -/
def minTop (q : List ℕ) : Option (ℕ × List ℕ) :=
  q.min?.map fun m => (m, q.erase m)

/-- The last text in byte order and the others. -/
def maxTopStr : List Text.Str → Option (Text.Str × List Text.Str)
  | [] => none
  | a :: as =>
      let m := as.foldl (fun x y => if x.map Char.toNat ≤ y.map Char.toNat then y else x) a
      some (m, (a :: as).erase m)

/-- A call on a queue. -/
inductive QueueOp (α : Type) where
  | push (v : α)
  | pop

/-- The content of a queue after a sequence of calls. -/
def play {α : Type} (popTop : PQ.PopTop α) (capacity : ℕ) (ops : List (QueueOp α)) :
    Option (List α) :=
  ops.foldl (fun st op => st.bind fun q =>
    match op with
    | .push v => match PQ.push popTop capacity q v with | .ok q' => some q' | _ => none
    | .pop => (popTop q).map (·.2)) (some [])
'''
open(__import__('os').path.dirname(__import__('os').path.dirname(__import__('os').path.abspath(__file__)))+'/lean/Verif/UnitTests.lean','w').write(pre+'\n'.join(out)+'\n\nend Verif.UnitTests\n')
