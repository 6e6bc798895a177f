"""Compare the printed Go code with the generated code in the repository token by token.

The types of parameters, results and variables and the types in `make(T)` and `&T{}` are left out, as are line ends, semicolons
and commas before a closing bracket; `else { if ... }` is the same as `else if ...`, and `&(e)` the same as `&e`. The code
of `defer` is moved to the end of the function."""
import re,sys,json
TOK=re.compile(r'"(?:[^"\\]|\\.)*"|`[^`]*`|//[^\n]*|\n|[A-Za-z_]\w*|\d+(?:\.\d+)?|:=|==|!=|>=|<=|\|\||&&|\+\+|\s|.',re.S)
def lex(src):
    r=[]
    for t in TOK.findall(src):
        if t.startswith('//') or (t.isspace() and t!='\n'): continue
        if t[0]=='"': t='"'+json.loads(t)
        elif t[0]=='`': t='"'+t[1:-1]
        r.append(t)
    return r
OPEN={'(':')','{':'}','[':']'}
def match(ts,i):
    """the index of the bracket which closes the one at i"""
    d=0
    for j in range(i,len(ts)):
        if ts[j] in OPEN: d+=1
        elif ts[j] in OPEN.values():
            d-=1
            if d==0: return j
    raise Exception('unbalanced')
def split(ts):
    """the parts between commas outside brackets"""
    r=[];d=0;cur=[]
    for t in ts:
        if t in OPEN: d+=1
        if t in OPEN.values(): d-=1
        if t==',' and d==0: r.append(cur);cur=[]
        else: cur.append(t)
    if cur: r.append(cur)
    return r
def clean(ts):
    # var x T
    r=[];i=0
    while i<len(ts):
        if ts[i]=='var':
            r+=ts[i:i+2]
            while ts[i]!='\n': i+=1
        else: r.append(ts[i]); i+=1
    ts=[t for t in r if t not in('\n',';')]
    ts=[t for i,t in enumerate(ts) if not(t==',' and ts[i+1] in OPEN.values())]
    # make(T), make(T, n), &T{}, &(e)
    i=0
    while i<len(ts):
        if ts[i]=='make':
            j=match(ts,i+1); a=split(ts[i+2:j])
            ts[i:j+1]=['makeSlice','(']+a[1]+[')'] if len(a)==2 else ['makeMap','(',')']
        elif ts[i]=='&' and ts[i+1]=='(':
            j=match(ts,i+1); ts[i+1:j+1]=ts[i+2:j]
        elif ts[i]=='&' and ts[i+2:i+4]==['{','}']: del ts[i+1]
        i+=1
    # else { if ... }
    i=0
    while i<len(ts):
        if ts[i:i+3]==['else','{','if']:
            j=match(ts,i+1); k=i+2
            while True:
                while ts[k]!='{':
                    k=match(ts,k)+1 if ts[k] in('(','[') else k+1
                    if ts[k-1]=='string' and ts[k]=='{': k=match(ts,k)+1
                k=match(ts,k)+1
                if ts[k]=='else': k+=1
                else: break
            if k==j: del ts[j]; del ts[i+1]
        i+=1
    return ts
def funcs(src):
    ts=lex(src);r={};order=[];i=0;d=0
    while i<len(ts):
        if ts[i]=='func' and d==0:
            name=ts[i+1];j=match(ts,i+2);first=lambda p:[t for t in p if t!='\n'][:1]
            ps=[first(p) for p in split(ts[i+3:j]) if first(p)]
            k=j+1;res=[]
            if ts[k]=='(':
                m=match(ts,k);res=[first(p) for p in split(ts[k+1:m]) if first(p)];k=m+1
            m=match(ts,k);b=ts[k+1:m]
            if 'defer' in b:
                x=b.index('defer')
                y=x+4 if b[x+1]=='func' else x+1
                z=match(b,y)
                body=b[y:z+1]
                b=b[:x]+b[z+1+(2 if y==x+4 else 0):]+['defer']+body
            if name not in('durationFromString','durationToString','addDuration'):
                r[name]=(ps,res,clean(b));order.append(name)
            i=m
        elif ts[i] in OPEN: d+=1
        elif ts[i] in OPEN.values(): d-=1
        i+=1
    return r,order
def patterns(src):
    ts=[t for t in lex(src) if t!='\n'];r={}
    for i,t in enumerate(ts):
        if t=='var' and re.fullmatch(r'pattern\d+',ts[i+1]): r[ts[i+1]]=next(x for x in ts[i:] if x[0]=='"')[1:]
    return r
ok=bad=0
for sec in open(sys.argv[1]).read().split('#### ')[1:]:
    name,body=sec.split('\n',1)
    if 'ERROR' in body: print('ERR',name,body[:50]); bad+=1; continue
    for part in re.split(r'^## ',body,flags=re.M)[1:]:
        mod,src=part.split('\n',1)
        text=open(name+'/'+mod+'.go').read()
        gold,go=funcs(text)
        mine,mo=funcs(src)
        if go!=mo: print('ORDER',name,mod,go,mo); bad+=1
        if patterns(text)!=patterns(src): print('PATTERNS',name,patterns(text),patterns(src)); bad+=1
        for k in gold:
            if mine.get(k)==gold[k]: ok+=1
            else:
                bad+=1; print('DIFF',name,mod,k)
                if bad<4:
                    a,b=gold[k],mine.get(k)
                    if b and a[:2]==b[:2]:
                        i=next((i for i in range(min(len(a[2]),len(b[2]))) if a[2][i]!=b[2][i]),-1)
                        print(a[2][max(0,i-10):i+20]); print(b[2][max(0,i-10):i+20])
                    else: print(a); print(b)
print(ok,bad)
