#!/usr/bin/env python3
"""Reads the template constants of pkg/renderer/sgml/html5/*.go and pkg/renderer/sgml/xhtml5/*.go and prints them
as Lean terms (module Verif/Model/Templates.lean).

A constant is a concatenation of Go string literals; the actions between {{ and }} are those listed in
Verif/Model/Template.lean, any other one is an error.  The template `inlineMenuTmpl` is not translated (it is
modelled by hand).  The assignment of the constants to the fields of `Templates` is read from templates.go,
and the ones that xhtml5 overrides from xhtml5.go.

usage: tmpl2lean.py /repo/pkg/renderer/sgml > Templates.lean"""
import sys,re,os,glob

def consts(path):
    t=open(path,encoding='utf-8').read()
    out=[]
    i=0
    def skip(i):
        while i<len(t):
            if t[i] in ' \t\r\n': i+=1
            elif t.startswith('//',i):
                while i<len(t) and t[i]!='\n': i+=1
            else: break
        return i
    def lit(i):
        if t[i]=='`':
            j=t.index('`',i+1)
            return t[i+1:j],j+1
        if t[i]=='"':
            j=i+1; r=''
            while t[j]!='"':
                if t[j]=='\\':
                    c=t[j+1]
                    r+={'n':'\n','t':'\t','"':'"','\\':'\\'}[c]; j+=2
                else: r+=t[j]; j+=1
            return r,j+1
        raise SystemExit('literal expected in %s at %d: %r'%(path,i,t[i:i+20]))
    for m in re.finditer(r'^\s*(\w+)\s*=\s*',t,re.M):
        name=m.group(1)
        i=skip(m.end())
        if i>=len(t) or t[i] not in '`"': continue
        line0=t.count('\n',0,m.start(1))+1
        v=''
        while True:
            s,i=lit(i); v+=s
            j=skip(i)
            if j<len(t) and t[j]=='+': i=skip(j+1)
            else: break
        out.append((name,v,line0,t.count('\n',0,i)+1))
    return out

FN={'toLower':'.toLower','halign':'.halign','valign':'.valign','trimLineFeedSuffix':'.trimLineFeedSuffix'}
def q(s):
    return '"'+s.replace('\\','\\\\').replace('"','\\"').replace('\n','\\n')+'"'

def tokens(s):
    r=[];i=0
    while True:
        j=s.find('{{',i)
        if j<0:
            if i<len(s): r.append(('t',s[i:]))
            return r
        if j>i: r.append(('t',s[i:j]))
        k=s.index('}}',j)
        r.append(('a',s[j+2:k].strip())); i=k+2

def translate(name,s):
    toks=tokens(s)
    pos=0
    var=None
    def field(x):
        if var and (x==var or x.startswith(var+'.')): return '$'
        assert x.startswith('.'),(name,x)
        return x[1:] if x!='.' else '.'
    def condition(x):
        w=x.split()
        if len(w)==1: return '(.is %s)'%q(field(w[0]))
        if w[0]=='not' and len(w)==2: return '(.isNot %s)'%q(field(w[1]))
        if w[0]=='ne' and w[2]=='""': return '(.nonEmpty %s)'%q(field(w[1]))
        if w[0]=='eq' and w[2].isdigit(): return '(.equals %s %s)'%(q(field(w[1])),w[2])
        if w[0]=='or': return '(.any [%s])'%', '.join(q(field(y)) for y in w[1:])
        raise SystemExit('condition not supported in %s: %s'%(name,x))
    # returns a list of items; each item is a function of what follows
    def seq(stop):
        nonlocal pos,var
        items=[]
        while pos<len(toks):
            k,x=toks[pos]
            if k=='t':
                items.append('.text '+q(x)); pos+=1; continue
            if re.match(r'end$|else\b',x):
                if stop: return items
                raise SystemExit('unexpected %s in %s'%(x,name))
            pos+=1
            m=re.match(r'if\s*(.*)$',x)
            if m and x.startswith('if'):
                items.append(branch(m.group(1))); continue
            m=re.match(r'range\s+(?:\$\w+,\s*)?(\$\w+)\s*:=\s*\.(\w+)$',x)
            if m:
                old=var; var=m.group(1)
                body=seq(True)
                assert toks[pos]==('a','end'); pos+=1
                var=old
                items.append('.loop %s %s'%(q(m.group(2)),paren(body))); continue
            w=x.split()
            if len(w)==1: items.append('.out .asIs %s'%q(field(w[0])))
            elif len(w)==2 and w[0] in FN: items.append('.out %s %s'%(FN[w[0]],q(field(w[1]))))
            else: raise SystemExit('action not supported in %s: %s'%(name,x))
        return items
    def branch(c):
        nonlocal pos
        a=seq(True)
        k,x=toks[pos]; pos+=1
        if x=='end': b=[]
        elif x=='else':
            b=seq(True)
            assert toks[pos]==('a','end'); pos+=1
        else:
            m=re.match(r'else\s+if\s+(.*)$',x)
            b=[branch(m.group(1))]
        return '.cond %s %s %s'%(condition(c),paren(a),paren(b))
    def paren(items):
        if not items: return '.done'
        return '('+' <| '.join(items)+' .done)' if len(items)==1 else '('+' <| '.join(items[:-1])+' <| '+items[-1]+' .done)'
    items=seq(False)
    if not items: return '  .done'
    lines=[]
    for it in items[:-1]: lines.append('  '+it+' <|')
    lines.append('  '+items[-1]+' .done')
    return '\n'.join(lines)

def main():
    root=sys.argv[1]
    print('import Verif.Model.Template')
    print('/-!')
    print('The templates of the HTML5 and XHTML5 renderers.  Generated from `pkg/renderer/sgml/html5/*.go` and')
    print('`pkg/renderer/sgml/xhtml5/*.go` by `tools/tmpl2lean.py`: do not edit.')
    print('-/')
    print('namespace Verif')
    print('namespace Tmpl')
    for d in ('html5','xhtml5'):
        print('\nnamespace %s'%d.capitalize())
        for f in sorted(glob.glob(os.path.join(root,d,'*.go'))):
            if f.endswith('_test.go'): continue
            for (n,v,a,b) in consts(f):
                if n=='inlineMenuTmpl': continue
                print('\n/-- %s/%s:%d-%d -/'%(d,os.path.basename(f),a,b))
                print('def %s : Tm :=\n%s'%(n,translate(n,v)))
        print('\nend %s'%d.capitalize())
    t=open(os.path.join(root,'html5','templates.go')).read()
    maps=re.findall(r'^\t(\w+):\s+(\w+),$',t,re.M)
    maps=[(f,c) for f,c in maps if c!='inlineMenuTmpl']
    lc=lambda f: {'QAndAList':'qAndAList','QAndAListElement':'qAndAListElement'}.get(f,f[0].lower()+f[1:])
    print('\n/-- templates.go:4-81 `Templates` (without `InlineMenu`). -/')
    print('structure Templates where')
    for f,c in maps: print('  %s : Tm'%lc(f))
    print('\n/-- html5/templates.go:13-89 -/')
    print('def html5 : Templates where')
    for f,c in maps: print('  %s := Html5.%s'%(lc(f),c))
    x=open(os.path.join(root,'xhtml5','xhtml5.go')).read()
    ov=re.findall(r'templates\.(\w+) = (\w+)',x)
    print('\n/-- xhtml5/xhtml5.go:13-30 -/')
    print('def xhtml5 : Templates := { html5 with')
    print(',\n'.join('  %s := Xhtml5.%s'%(lc(f),c) for f,c in ov)+' }')
    print('\nend Tmpl')
    print('end Verif')
main()
