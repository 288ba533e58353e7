#!/usr/bin/env python3
"""Reads pkg/parser/parser.peg and prints the grammar as Lean terms (module Verif/Model/Grammar.lean).

Labels are dropped; code blocks (actions, predicates, state changes) get a number, and their
source is kept in a comment.  No other change is made to the grammar."""
import sys,re

class Src:
    def __init__(s,t): s.t=t; s.i=0
def parse_file(path):
    t=open(path,encoding='utf-8').read()
    i=0;n=len(t)
    line=lambda p: t.count('\n',0,p)+1
    def skip(i):
        while i<n:
            if t[i] in ' \t\r\n': i+=1
            elif t.startswith('//',i):
                while i<n and t[i]!='\n': i+=1
            elif t.startswith('/*',i):
                i=t.index('*/',i)+2
            else: break
        return i
    def code(i):
        # t[i]=='{' : Go code block, skipping strings and comments
        assert t[i]=='{'
        d=0;j=i
        while True:
            c=t[j]
            if c=='{': d+=1
            elif c=='}':
                d-=1
                if d==0: return t[i:j+1],j+1
            elif t.startswith('//',j):
                while t[j]!='\n': j+=1
                continue
            elif c=='"':
                j+=1
                while t[j]!='"':
                    if t[j]=='\\': j+=1
                    j+=1
            elif c=='`':
                j=t.index('`',j+1)
            elif c=="'":
                j+=1
                while t[j]!="'":
                    if t[j]=='\\': j+=1
                    j+=1
            j+=1
    def esc(j):
        # after backslash
        c=t[j]
        m={'n':'\n','r':'\r','t':'\t','\\':'\\','"':'"',"'":"'",']':']','-':'-','[':'[','^':'^'}
        if c=='u': return chr(int(t[j+1:j+5],16)),j+5
        return m[c],j+1
    i=skip(0)
    if t[i]=='{': _,i=code(i)
    i=skip(i)
    rules=[]
    codes=[]
    ident=re.compile(r'[A-Za-z_][A-Za-z0-9_]*')
    def isrule(i):
        m=ident.match(t,i)
        if not m: return None
        j=skip(m.end())
        if j<n and t[j] in '"`':   # display name
            return None
        if t.startswith('<-',j): return m.group(0),j+2
        return None
    def choice(i):
        alts=[];e,i=action(i);alts.append(e)
        while True:
            j=skip(i)
            if j<n and t[j]=='/' and not t.startswith('//',j):
                e,i=action(j+1);alts.append(e)
            else: break
        return (('alt',alts) if len(alts)>1 else alts[0]),i
    def action(i):
        es=[]
        ln=None
        i=skip(i)
        ln=line(i)
        while True:
            i=skip(i)
            if i>=n or t[i] in ')/' or t[i]=='{' or isrule(i): break
            e,i=labeled(i); es.append(e)
        e=('seq',es) if len(es)!=1 else es[0]
        i=skip(i)
        if i<n and t[i]=='{':
            c,j=code(i); codes.append(('act',c,line(i)))
            return ('act',len(codes)-1,e),j
        return e,i
    def labeled(i):
        m=ident.match(t,i)
        if m:
            j=skip(m.end())
            if j<n and t[j]==':': 
                e,i=prefixed(skip(j+1)); return e,i
        return prefixed(i)
    def prefixed(i):
        i=skip(i)
        if t[i] in '&!#':
            k=t[i]; j=skip(i+1)
            if t[j]=='{':
                c,e=code(j); codes.append(({'&':'pred','!':'npred','#':'state'}[k],c,line(j)))
                return ({'&':'pred','!':'npred','#':'state'}[k],len(codes)-1),e
            assert k!='#'
            e,j=suffixed(j)
            return ({'&':'and','!':'not'}[k],e),j
        return suffixed(i)
    def suffixed(i):
        e,i=primary(i)
        j=skip(i)
        if j<n and t[j] in '?*+':
            return ({'?':'opt','*':'star','+':'plus'}[t[j]],e),j+1
        return e,i
    def primary(i):
        i=skip(i);c=t[i]
        if c=='(':
            e,j=choice(i+1); j=skip(j); assert t[j]==')',(line(j),t[j:j+40]); return e,j+1
        if c=='.': return ('any',),i+1
        if c in '"`\'':
            j=i+1;s=''
            while t[j]!=c:
                if t[j]=='\\' and c!='`': ch,j=esc(j+1); s+=ch
                else: s+=t[j]; j+=1
            j+=1
            ic=False
            if j<n and t[j]=='i' and not (t[j+1].isalnum()): ic=True; j+=1
            return ('lit',s,ic),j
        if c=='[':
            j=i+1;neg=False
            if t[j]=='^': neg=True;j+=1
            chars=[];ranges=[];classes=[]
            items=[]
            while t[j]!=']':
                if t[j]=='\\' and t[j+1]=='p':
                    classes.append(t[j+2]); j+=3; items.append(None); continue
                if t[j]=='\\': ch,j=esc(j+1)
                else: ch=t[j]; j+=1
                if t[j]=='-' and t[j+1]!=']':
                    j+=1
                    if t[j]=='\\': ch2,j=esc(j+1)
                    else: ch2=t[j]; j+=1
                    ranges.append((ch,ch2))
                else: chars.append(ch)
            j+=1
            if j<n and t[j]=='i' and not t[j+1].isalnum(): raise Exception('ic class')
            return ('cls',neg,chars,ranges,classes),j
        m=ident.match(t,i)
        assert m,(line(i),t[i:i+50])
        return ('ref',m.group(0)),m.end()
    while i<n:
        r=isrule(i)
        assert r,(line(i),t[i:i+60])
        name,j=r
        ln=line(i)
        e,i=choice(j)
        rules.append((name,ln,e))
        i=skip(i)
    return rules,codes


def ch(c):
    m={'\n':"'\\n'",'\r':"'\\r'",'\t':"'\\t'","'":"'\\''",'\\':"'\\\\'"}
    if c in m: return m[c]
    if ord(c)<32 or ord(c)>126: return "'\\u%04x'"%ord(c)
    return "'%s'"%c
def chars(l): return '['+', '.join(ch(c) for c in l)+']'
def b(x): return 'true' if x else 'false'
def direct_pred(e): return e[0] in('pred','npred','state')
def emit(e,idx):
    k=e[0]
    if k=='any': return '.any'
    if k=='lit': return '.litI %s'%chars(e[1]) if e[2] else '.lit %s'%chars(e[1])
    if k=='cls':
        return '.cls ⟨%s, %s, [%s], %s, %s⟩'%(b(e[1]),chars(e[2]),', '.join('(%s, %s)'%(ch(x),ch(y)) for x,y in e[3]),b('L' in e[4]),b('N' in e[4]))
    P=lambda x:'('+emit(x,idx)+')' if ' ' in emit(x,idx) else emit(x,idx)
    def right(op,l):
        if len(l)==1: return P(l[0])
        return '(.%s %s %s)'%(op,P(l[0]),right(op,l[1:]))
    if k=='seq':
        if not e[1]: return '.eps'
        return '.scope '+right('seq',e[1])
    if k=='alt': return right('alt',e[1])[1:-1]
    if k in('star','plus','opt'): return '.%s %s'%(k,P(e[1]))
    if k=='and': return '.andP '+P(e[1])
    if k=='not': return '.notP '+P(e[1])
    if k=='ref': return '.rule R.%s'%e[1]
    if k=='pred': return '.pred %d'%e[1]
    if k=='state': return '.state %d'%e[1]
    if k=='act': return '.act %d %s'%(e[1],P(e[2]))
    raise Exception(k)

def wrap(s,w=118):
    """breaks a long line at spaces"""
    out=[];cur='  '
    for tok in re.findall(r"'[^\\]'|'\\u[0-9a-f]{4}'|'\\.'|[^\s']+|\s",s):
        if tok==' ' and len(cur)>=w-14: out.append(cur); cur='    '
        else: cur+=tok
    out.append(cur)
    return '\n'.join(out)

def generate(rules,codes):
    idx={n:i for i,(n,_,_) in enumerate(rules)}
    o=[]
    o.append('import Verif.Model.Peg\n')
    o.append('/-!\nThe whole grammar of `pkg/parser/parser.peg`, rule by rule, in the order of the file.\n'
      'GENERATED by `tools/peg2lean.py` from the file itself: labels are dropped, code blocks are numbered in the\n'
      'order of the file (`Verif.Peg.Sem` gives them a meaning). Nothing is simplified otherwise.\n-/\nnamespace Verif\nnamespace Grammar\nopen Peg (Exp)\n')
    o.append('/-! The numbers of the rules. -/\nnamespace R')
    for n,i in idx.items(): o.append('/-- parser.peg:%d -/ abbrev %s : Nat := %d'%(rules[i][1],n,i))
    o.append('end R\n')
    o.append('/-! The predicates (`&{…}`) and state changes (`#{…}`) of the grammar:\n')
    for n,(k,c,l) in enumerate(codes):
        if k!='act':
            c=re.sub(r'//[^\n]*','',c); c=re.sub(r'log\.\w+\([^\n]*','',c); c=re.sub(r'\s+',' ',c)
            o.append('%d (parser.peg:%d): `%s%s`'%(n,l,{'pred':'&','state':'#'}[k],c))
    o.append('-/\n')
    for i,(n,l,e) in enumerate(rules):
        o.append('/-- parser.peg:%d `%s` -/'%(l,n))
        o.append('def g%s : Exp :=\n%s\n'%(n,wrap(emit(e,idx))))
    o.append('/-- All the rules, in the order of the file (parser.peg). -/')
    names=['g'+n for n,_,_ in rules]
    o.append('def rules : List Exp := [\n'+',\n'.join('  '+', '.join(names[i:i+4]) for i in range(0,len(names),4))+']\n')
    o.append('/-- The grammar (parser.peg). -/\ndef grammar (i : Nat) : Exp := rules.getD i .eps\n')
    o.append('end Grammar\nend Verif')
    return '\n'.join(o)+'\n'

if __name__=='__main__':
    src=sys.argv[1] if len(sys.argv)>1 else '/repo/pkg/parser/parser.peg'
    rules,codes=parse_file(src)
    sys.stdout.write(generate(rules,codes))
