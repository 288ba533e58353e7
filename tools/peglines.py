import sys; sys.path.insert(0,'/verif/tools'); sys.argv=['x']
import io,contextlib
with contextlib.redirect_stdout(io.StringIO()), contextlib.redirect_stderr(io.StringIO()):
    import pegcert as P
from pegcert import *
raw=[e for _,_,e in rules]
def eolcls(e): return e[0]=='cls' and (not e[1]) and all(c in '\r\n' for c in e[2]) and not e[3] and not e[4] and e[2]
def conv2(e):
    k=e[0]
    if k=='cls': return ('cls',bool(eolcls(e)))
    if k=='any': return ('any',)
    if k=='lit': return ('litI' if e[2] else 'lit',e[1])
    def right(op,l): return conv2(l[0]) if len(l)==1 else (op,conv2(l[0]),right(op,l[1:]))
    if k=='seq': return ('scope',right('seq',e[1])) if e[1] else ('eps',)
    if k=='alt': return right('alt',e[1])
    if k in('star','plus','opt','and','not'): return (k,conv2(e[1]))
    if k=='ref': return ('rule',idx[e[1]])
    if k in('pred','state'): return (k,e[1])
    if k=='act': return ('act',e[1],conv2(e[2]))
H=[conv2(e) for e in raw]
B=[True]*N
def nn(e): return not an1(e)[0]
def en(e):
    k=e[0]
    if k in('eps','and','not','pred','state'): return True
    if k=='any': return False
    if k=='cls': return e[1]
    if k in('lit','litI'): return e[1]=='' or e[1][-1] in '\r\n'
    if k=='seq': return en(e[2]) and (en(e[1]) or nn(e[2]))
    if k=='alt': return en(e[1]) and en(e[2])
    if k in('star','plus','opt','scope'): return en(e[1])
    if k=='act': return en(e[2])
    if k=='rule': return B[e[1]]
while True:
    new=[B[i] and en(H[i]) for i in range(N)]
    if new==B: break
    B=new
print([rules[i][0] for i in range(N) if B[i]])
for n in "BlockAttributes ImageBlock UserMacroBlock ShortcutParagraph AttributeDeclaration AttributeReset BlankLine DocumentHeader Section DelimitedBlock ThematicBreak ListElements Table SinglelineComment FrontMatter Paragraph".split():
    print(n,B[idx[n]])
def tab(l): 
    out=[];cur='  '
    for i,x in enumerate(l):
        w=str(x)+(', ' if i<len(l)-1 else '')
        if len(cur)+len(w)>116: out.append(cur.rstrip()); cur='  '
        cur+=w
    out.append(cur)
    return '\n'.join(out)
open('/tmp/w/bd.txt','w').write(tab(['R.'+rules[i][0] for i in range(N) if B[i]]))
