"""Compare the printed C++ code of the serializer with the generated code in the repository token by token.

White space and comments are left out, adjacent string literals are joined, and the functions come in the same order."""
import re,sys,json
TOK=re.compile(r'R"(\w*)\(.*?\)\1"|"(?:[^"\\]|\\.)*"|\'(?:[^\'\\]|\\.)*\'|//[^\n]*|/\*.*?\*/|[A-Za-z_]\w*|\d+|::|->|==|!=|\+\+|\+=|\s|.',re.S)
def lex(src):
    r=[]
    for t in (m.group(0) for m in TOK.finditer(src)):
        if t[:2] in('//','/*') or t.isspace(): continue
        if t[0]=='"':
            t='"'+json.loads(t)
            if r and r[-1][0]=='"': r[-1]+=t[1:]; continue
        r.append(t)
    return r
def funcs(src):
    ts=lex(src);r=[];i=0
    while i<len(ts):
        if ts[i:i+3]==['Json','::','Value'] and i+4<len(ts) and ts[i+3].startswith('serialize_') and ts[i+4]=='(':
            j=i
            while ts[j] not in('{',';'): j+=1
            d=0
            while ts[j]!=';' or d:
                d+={'{':1,'}':-1}.get(ts[j],0)
                if d==0: break
                j+=1
            r.append(ts[i:j+1]);i=j
        i+=1
    return r
ok=bad=0
for sec in open(sys.argv[1]).read().split('#### ')[1:]:
    name,body=sec.split('\n',1)
    if 'ERROR' in body: print('ERR',name,body[:50]); bad+=1; continue
    gold=funcs(open(name+'/jsoncpp.cpp').read()); mine=funcs(body)
    if [f[3] for f in gold]!=[f[3] for f in mine]: print('ORDER',name,[f[3] for f in gold],[f[3] for f in mine]); bad+=1
    for a,b in zip(gold,mine):
        if a==b: ok+=1; continue
        bad+=1; print('DIFF',name,a[3])
        i=next((i for i in range(min(len(a),len(b))) if a[i]!=b[i]),-1)
        print(a[max(0,i-10):i+20]); print(b[max(0,i-10):i+20])
print(ok,bad)
