#!/usr/bin/env python3
"""Computes the tables of the termination certificate (Verif/Proofs/GrammarCert.lean). The kernel checks
them: nothing here is trusted."""
import sys,os
sys.path.insert(0,os.path.dirname(os.path.abspath(__file__)))
from peg2lean import parse_file
GUARDS=[47,85,181,428]
EXEMPT='MultilineTableCellContent'
def conv(e,idx):
    k=e[0]
    if k=='any': return ('any',)
    if k=='lit': return ('litI' if e[2] else 'lit',e[1])
    if k=='cls': return ('cls',)
    def right(op,l): return conv(l[0],idx) if len(l)==1 else (op,conv(l[0],idx),right(op,l[1:]))
    if k=='seq': return ('scope',right('seq',e[1])) if e[1] else ('eps',)
    if k=='alt': return right('alt',e[1])
    if k in('star','plus','opt','and','not'): return (k,conv(e[1],idx))
    if k=='ref': return ('rule',idx[e[1]])
    if k in('pred','state'): return (k,e[1])
    if k=='act': return ('act',e[1],conv(e[2],idx))
    raise Exception(k)
rules,codes=parse_file('/repo/pkg/parser/parser.peg')
idx={n:i for i,(n,_,_) in enumerate(rules)}
G=[conv(e,idx) for _,_,e in rules]
N=len(G)
n0=[False]*N; n1=[False]*N; s0=[False]*N; s1=[False]*N
def guarded(e):
    k=e[0]
    if k=='seq': return guarded(e[1]) or guarded(e[2])
    if k=='pred': return e[1] in GUARDS
    if k=='act': return guarded(e[2])
    return False
def an0(e):
    k=e[0]
    if k in('eps','star','opt','state'): return True,True
    if k in('any','cls'): return False,False
    if k=='lit':
        v=all(c=='\ufffd' for c in e[1]); return v,v
    if k=='litI': return e[1]=='',e[1]==''
    if k in('seq','alt'):
        a,b=an0(e[1]),an0(e[2])
        return (a[0] and b[0],a[1] and b[1]) if k=='seq' else (a[0] or b[0],a[1] or b[1])
    if k in('plus','and'): return an0(e[1])
    if k=='not':
        a=an0(e[1]); return not a[1],not a[0]
    if k=='rule': return n0[e[1]],s0[e[1]]
    if k=='pred': return True,False
    if k=='act': return an0(e[2])
    if k=='scope':
        a=an0(e[1]); return a[0] and not guarded(e[1]),a[1]
def an1(e):
    k=e[0]
    if k in('eps','star','opt','state'): return True,True
    if k=='any': return False,True
    if k=='cls': return False,False
    if k in('lit','litI'): return e[1]=='',e[1]==''
    if k=='seq':
        a,b=an1(e[1]),an1(e[2]); return a[0] and b[0],a[1] and b[1] and an0(e[2])[1]
    if k=='alt':
        a,b=an1(e[1]),an1(e[2]); return a[0] or b[0],a[1] or b[1]
    if k=='plus': return an1(e[1])
    if k=='and': return True,an1(e[1])[1]
    if k=='not': return not an1(e[1])[1],False
    if k=='rule': return n1[e[1]],s1[e[1]]
    if k=='pred': return True,False
    if k=='act': return an1(e[2])
    if k=='scope':
        a=an1(e[1]); return a[0] and not guarded(e[1]),a[1]
def tables():
  for _ in range(6):
    # least null0 for the current sure0
    n0[:]=[False]*N
    while True:
        new=[n0[i] or an0(G[i])[0] for i in range(N)]
        if new==n0: break
        n0[:]=new
    ns=[an0(G[i])[1] for i in range(N)]
    # only keep growing, consistent
    s0[:]=[s0[i] or ns[i] for i in range(N)]
  for _ in range(6):
    n1[:]=[False]*N
    while True:
        new=[n1[i] or an1(G[i])[0] for i in range(N)]
        if new==n1: break
        n1[:]=new
    ns=[an1(G[i])[1] for i in range(N)]
    s1[:]=[s1[i] or ns[i] for i in range(N)]
g=GUARDS; GUARDS=[]; tables(); w0=list(n0); w1=list(n1); ws=(list(s0),list(s1)); GUARDS=g
s0[:]=[False]*N; s1[:]=[False]*N; tables(); assert ws==(s0,s1)
assert all(not s0[i] or an0(G[i])[1] for i in range(N))
def left(e,o):
    k=e[0]
    if k=='rule': o.add(e[1])
    elif k=='seq':
        left(e[1],o)
        if an0(e[1])[0] or an1(e[1])[0]: left(e[2],o)
    elif k=='alt': left(e[1],o); left(e[2],o)
    elif k in('star','plus','opt','and','not','scope'): left(e[1],o)
    elif k=='act': left(e[2],o)
def stars(e,n):
    k=e[0]
    if k in('star','plus'):
        if an0(e[1])[0] or an1(e[1])[0]:
            print('nullable iteration in',n,an0(e[1]),an1(e[1]),file=sys.stderr)
        stars(e[1],n)
    elif k in('seq','alt'): stars(e[1],n); stars(e[2],n)
    elif k=='act': stars(e[2],n)
    elif k in('opt','and','not','scope'): stars(e[1],n)
for i in range(N): stars(G[i],rules[i][0])
rank=[None]*N
def rk(i,path):
    if i in path: print('left recursion',[rules[j][0] for j in path],file=sys.stderr); return 0
    if rank[i] is None:
        s=set(); left(G[i],s)
        rank[i]=max([rk(j,path+[i])+1 for j in s],default=0)
    return rank[i]
for i in range(N): rk(i,[])
def tab(l): 
    out=[];cur='  '
    for i,x in enumerate(l):
        w=(str(x) if not isinstance(x,bool) else ('true' if x else 'false'))+(', ' if i<len(l)-1 else '')
        if len(cur)+len(w)>116: out.append(cur.rstrip()); cur='  '
        cur+=w
    out.append(cur)
    return '\n'.join(out)
names=lambda v:tab(['R.'+rules[i][0] for i in range(N) if v[i]])
print('''import Verif.Model.Grammar
import Verif.Proofs.Peg

/-!
The termination certificate of the grammar: GENERATED by `tools/pegcert.py`; checked by the kernel in
`Verif/Props/Grammar.lean`.
-/
namespace Verif
namespace Grammar

/-- The rules that may succeed on the empty text. -/
def null0 : List Nat := [
%s]

/-- The rules that may succeed without consuming anything on other texts. -/
def null1 : List Nat := [
%s]

/-- Without assumptions on the predicates: more rules that may succeed on the empty text. -/
def weak0 : List Nat := [
%s]

/-- Without assumptions on the predicates: more rules that may succeed without consuming on other texts. -/
def weak1 : List Nat := [
%s]

/-- The rules that certainly succeed on the empty text. -/
def sure0 : List Nat := [
%s]

/-- The rules that certainly succeed on other texts. -/
def sure1 : List Nat := [
%s]

/-- The ranks of the rules. -/
def rankTable : List Nat := [
%s]

end Grammar
end Verif'''%(names(n0),names(n1),names([w0[i] and not n0[i] for i in range(N)]),names([w1[i] and not n1[i] for i in range(N)]),names(s0),names(s1),tab(rank)))
print('max rank',max(rank),file=sys.stderr)
