# Generates lean/Verif/Model/BaseText.lean (the shipped texts of the base grammar, verbatim) and
# lean/Verif/Lemmas/BaseTextData.lean (the same texts as written entries).
import re
base='/repo/domain/languages/scripts/resources/base/'
root='/verif/lean/Verif/'
def esc(s): return s.replace('\\','\\\\').replace('"','\\"').replace('\t','\\t').replace('\n','\\n')
def V(s): return '[]' if s=='' else 'lit "%s"'%esc(s)
def L(s): return '[]' if s=='' else '(bytes% "@S")'.replace('@S',esc(s))
T={f:open(base+f+'.alex').read() for f in ['patterns','rules','tokens','channels']}
WS=r'[ \t\r\n]*'
# ---- tokens
def parse_line(s):
    items=[];p=0
    while True:
        m=re.compile(WS).match(s,p); pre=m.group(0); p=m.end()
        if p==len(s): return items,pre
        if s[p]=='#':
            items.append('(%s, .switch)'%L(pre)); p+=1; continue
        m=re.compile(r'[A-Z_]+|[a-z][a-zA-Z]*').match(s,p); assert m,(s,p); name=m.group(0); p=m.end()
        m=re.compile('('+WS+r')(\?|\+|\*|\{[0-9]+\})?(->([^<]*)<-)?').match(s,p)
        gap,card,sub,specs=m.group(1),m.group(2),m.group(3),m.group(4)
        if not card and not sub: gap=''
        else: p=m.end()
        k={None:'none','?':'(some .optional)','+':'(some .nonZeroMultiple)','*':'(some .zeroMultiple)'}.get(card)
        if k is None: k='(some (.specific (.amount %s)))'%card[1:-1]
        if name[0].isupper(): items.append('(%s, .rule (%s) %s %s)'%(L(pre),L(name),L(gap) if gap=='' else '('+L(gap)+')',k)); assert not sub
        else:
            sp='[]';close=''
            if sub:
                m=re.fullmatch('('+WS+')([a-z][a-zA-Z]*)('+WS+r')\{([0-9]+)\}('+WS+')',specs); assert m
                sp='[⟨%s, false, %s, %s, .amount %s⟩]'%(L(m.group(1)),L(m.group(2)),L(m.group(3)),m.group(4)); close=m.group(5)
            P=lambda x: L(x) if x=='' else '('+L(x)+')'
            items.append('(%s, .token (%s) %s %s %s %s)'%(L(pre),L(name),P(gap),k,sp,P(close)))
def parse_tokens(s):
    res=[];p=0
    while True:
        m=re.compile('('+WS+')([a-z][a-zA-Z]*)('+WS+'):').match(s,p)
        if not m:
            assert s[p:].strip()=='' ; return res,s[p:]
        e=s.index(';',m.end()); body=s[m.end():e]; start=p; p=e+1
        parts=body.split('+++'); assert len(parts)<=2 and '---' not in body
        lines=[parse_line(x) for x in parts[0].split('|')]
        lt='['+',\n      '.join('([%s], %s)'%(', '.join(i),L(w)) for i,w in lines)+']'
        ts='none'
        if len(parts)==2:
            m2=re.compile('('+WS+'):').match(parts[1]); tests=parts[1][m2.end():].split('###')
            ts='some ⟨%s, [%s], %s⟩'%(L(m2.group(1)),', '.join(L(x) for x in tests[:-1]),L(tests[-1]))
        res.append((s[start:p],'⟨%s, %s, %s,\n     %s,\n     none, %s⟩'%(L(m.group(1)),L(m.group(2)),L(m.group(3)),lt,ts)))
# ---- rules
def parse_rules(s):
    res=[];p=0
    while True:
        m=re.compile('('+WS+')([A-Z_]+):').match(s,p)
        if not m:
            assert s[p:].strip()==''; return res,s[p:]
        q=m.end()
        c=re.compile('('+WS+r')"((?:\\"|[^"\\])*)"('+WS+');').match(s,q)
        if c: b='.constant %s (%s) %s'%tuple([ '('+L(c.group(1))+')' if c.group(1) else '[]',L(c.group(2).replace('\\"','"')),'('+L(c.group(3))+')' if c.group(3) else '[]'])
        else:
            c=re.compile('('+WS+r')\[('+WS+r')([a-z_ ]*)\]('+WS+r')(\?|\+|\*|\{[0-9]+\})('+WS+');').match(s,q); assert c,s[q:q+50]
            k={'?':'.optional','+':'.nonZeroMultiple','*':'.zeroMultiple'}.get(c.group(5)) or '(.specific (.amount %s))'%c.group(5)[1:-1]
            P=lambda x:'('+L(x)+')' if x else '[]'
            b='.pattern %s %s [%s] %s %s %s'%(P(c.group(1)),P(c.group(2)),', '.join(L(x) for x in c.group(3).split(' ')),P(c.group(4)),k,P(c.group(6)))
        res.append((s[p:c.end()],'⟨%s, %s, %s⟩'%(L(m.group(1)),L(m.group(2)),b))); p=c.end()
# ---- patterns
def parse_patterns(s):
    res=[];p=0
    while True:
        m=re.compile('('+WS+r')(\$[A-Z_]+)('+WS+'):('+WS+')"([^;]*)"('+WS+');').match(s,p)
        if m:
            opts=[o.replace('\\"','"') for o in m.group(5).split(',')]
            res.append((s[p:m.end()],'.group ⟨%s, %s, %s, %s, [%s], %s⟩'%(L(m.group(1)),L(m.group(2)),L(m.group(3)),L(m.group(4)),', '.join(L(o) for o in opts),L(m.group(6))))); p=m.end(); continue
        m=re.compile('('+WS+r')([A-Z_]+)('+WS+'):([^;]*);').match(s,p)
        if m:
            refs=re.findall('('+WS+r')(\$[A-Z_]+)',m.group(4)); rest=re.sub('('+WS+r')(\$[A-Z_]+)','',m.group(4))
            res.append((s[p:m.end()],'.serie ⟨%s, %s, %s, [%s], %s⟩'%(L(m.group(1)),L(m.group(2)),L(m.group(3)),', '.join('(%s, %s)'%(L(a),L(b)) for a,b in refs),L(rest)))); p=m.end(); continue
        m=re.compile('('+WS+r')([a-z_]+)('+WS+'):([^;]*);').match(s,p)
        if m:
            ch=re.findall('('+WS+r')(@?)([A-Z_]+)',m.group(4)); rest=re.sub('('+WS+r')(@?)([A-Z_]+)','',m.group(4))
            res.append((s[p:m.end()],'.pattern ⟨%s, %s, %s, [%s], %s⟩'%(L(m.group(1)),L(m.group(2)),L(m.group(3)),', '.join('⟨%s, %s, %s⟩'%(L(a),'true' if b else 'false',L(c)) for a,b,c in ch),L(rest)))); p=m.end(); continue
        assert s[p:].strip()==''; return res,s[p:]
D={'patterns':parse_patterns(T['patterns']),'rules':parse_rules(T['rules']),'tokens':parse_tokens(T['tokens']),'channels':parse_tokens(T['channels'])}
for f in D: assert ''.join(a for a,_ in D[f][0])+D[f][1]==T[f]
with open(root+'Model/BaseText.lean','w') as o:
    o.write('''import Verif.Model.Go

/-!
# The shipped texts of the base grammar

`domain/languages/scripts/resources/base/{patterns,rules,tokens,channels}.alex`, verbatim (generated by `tools/gen_base_text.py`). Each text is
cut into pieces behind the semicolons which end the entries.
-/

namespace Verif.Base
open Verif
''')
    for f in D:
        o.write('\n/-- `%s.alex`, %d bytes. -/\ndef %sPieces : List Str :=\n  [%s]\n'%(f,len(T[f]),f,',\n   '.join(V(a) for a,_ in D[f][0])))
        o.write('/-- What follows the last semicolon. -/\ndef %sEnd : Str := %s\ndef %sAlex : Str := %sPieces.flatten ++ %sEnd\n'%(f,V(D[f][1]),f,f,f))
    o.write('\nend Verif.Base\n')
ty={'patterns':'Entry','rules':'RuleT','tokens':'TokenT','channels':'TokenT'}
with open(root+'Lemmas/BaseTextData.lean','w') as o:
    o.write('''import Verif.Model.BaseText
import Verif.Spec.TextPatterns
import Verif.Lemmas.LitBytes

/-!
# The shipped texts of the base grammar as written entries (generated by `tools/gen_base_text.py`)
-/

set_option maxRecDepth 100000

namespace Verif.Base
open Verif Verif.Text Verif.Cardinality
''')
    for f in D:
        o.write('\ndef %sData : List %s :=\n  [%s]\n'%(f,ty[f],',\n   '.join(b for _,b in D[f][0])))
    for f in D:
        o.write('\ndef %sPiecesB : List Str :=\n  [%s]\n'%(f,',\n   '.join(L(a) for a,_ in D[f][0])))
        o.write('theorem %sPieces_eq : %sPieces = %sPiecesB := by\n  unfold %sPieces %sPiecesB\n  simp only [litBytes]\n'%(f,f,f,f,f))
        fn='(Entry.text [92, 34])' if f=='patterns' else ty[f]+'.text'
        o.write('theorem %s_pieces : %sData.map %s = %sPiecesB := by decide +kernel\n'%(f,f,fn,f))
    o.write('\nend Verif.Base\n')
print({f:len(D[f][0]) for f in D}, {f:D[f][1] for f in D})
