"""Compare the printed C++ code of the parser with the generated code in the repository token by token.

White space and comments are left out and adjacent string literals are joined. In the generated code,
* the literals of the messages and the regular expressions, which are constants there, are put where they are used,
* the check for a null pointer is left out,
* the element types of vectors and maps and the constructor of paths are left out,
* the buffer `instance_ref` is replaced by the text which it holds, after its statements have been compared with the expected ones."""
import re,sys,json
TOK=re.compile(r'R"(\w*)\(.*?\)\1"|"(?:[^"\\]|\\.)*"|\'(?:[^\'\\]|\\.)*\'|//[^\n]*|/\*.*?\*/|[A-Za-z_]\w*|\d+|::|->|==|!=|\+\+|\+=|>>(?=\s*date)|\s|.',re.S)
def lex(src):
    r=[]
    for m in TOK.finditer(src):
        t=m.group(0)
        if t[:2] in('//','/*') or t.isspace(): continue
        if t[0]=='"' or t[:2]=='R"':
            s=json.loads(t) if t[0]=='"' else t[3+len(m.group(1)):-2-len(m.group(1))]
            t='S'+s.encode().hex()+'_'
            if r and re.fullmatch('S[0-9a-f]*_',r[-1]): r[-1]=r[-1][:-1]+t[1:]; continue
        r.append(t)
    return r
def funcs(src):
    ts=lex(src);r=[];i=0
    while i<len(ts):
        if ts[i]=='void' and i+2<len(ts) and ts[i+1].endswith('_from') and ts[i+2]=='(':
            j=i
            while ts[j] not in('{',';'): j+=1
            d=0
            while ts[j]!=';' or d:
                d+={'{':1,'}':-1}.get(ts[j],0)
                if d==0: break
                j+=1
            r.append(ts[i:j+1]);i=j
        i+=1
    return [f for f in r if f[-1]=='}']
def literal(s): return 'S'+s.encode().hex()+'_'
def normal(f,ids):
    t=' '.join(f)
    t=re.sub(r'constexpr auto (\w+) \( (S\w+) \) ; errors -> add \( ((?:(?!constexpr).)*?) , message \( \1 , strlen \( \1 \) ,',r'errors -> add ( \3 , message ( \2 ,',t)
    while True:
        m=re.search(r'const static std :: regex (\w+) \( (S\w+) \) ; ',t)
        if not m: break
        rest=re.sub(r'(regex_match \( \w+ ,) %s \)'%m.group(1),r'\1 %s )'%m.group(2),t[m.end():],count=1)
        t=t[:m.start()]+rest
    t=re.sub(r'(\w+) :: kID',lambda m:ids[m.group(1)],t)
    t=t.replace('if ( errors == nullptr ) { throw std :: invalid_argument ( %s ) ; } '%literal('Unexpected null errors'),'')
    t=re.sub(r'std :: map < std :: string , std :: unique_ptr < \w+ > > & (\w+) ,',r'map & \1 ,',t)
    t=re.sub(r'std :: (vector|map) < [^;={]*? > & (\w+) =',r'\1 & \2 =',t)
    t=re.sub(r'(?:boost|std) :: filesystem :: path \( (\w+ (?:\. \w+ \( \) )?)\)',r'\1',t)
    t=t.replace('const std :: string & ','const std :: string ').replace('std :: string instance_ref ; ','')
    while True:
        m=re.search(r"instance_ref \. clear \( \) ; instance_ref \+= (\w+) ; instance_ref \+= '/' ; ",t)
        if not m: break
        x=m.group(1); rest=t[m.end():]
        u='instance_ref . reserve ( %s . size ( ) + 1 + it . name ( ) . size ( ) ) ; instance_ref . resize ( %s . size ( ) + 1 ) ; instance_ref . append ( it . name ( ) ) ; '%(x,x)
        i=rest.index(u); rest=rest[:i]+rest[i+len(u):]
        rest=rest[:i]+rest[i:].replace(' instance_ref ,',' std :: string ( %s ) . append ( %s ) . append ( it . name ( ) ) ,'%(x,literal('/')),1)
        t=t[:m.start()]+rest
    return t.split()
ok=bad=0
for sec in open(sys.argv[1]).read().split('#### ')[1:]:
    name,body=sec.split('\n',1)
    if 'ERROR' in body: print('ERR',name,body[:50]); bad+=1; continue
    src=open(name+'/jsoncpp.cpp').read()
    ids=dict(re.findall(r'namespace (\w+) \{ const std :: regex kID \( (S\w+) \) ;',' '.join(lex(src))))
    gold=[normal(f,ids) for f in funcs(src)]; mine=funcs(body)
    if [f[1] for f in gold]!=[f[1] for f in mine]: print('ORDER',name,[f[1] for f in gold],[f[1] for f in mine]); bad+=1
    for a,b in zip(gold,mine):
        if a==b: ok+=1; continue
        bad+=1; print('DIFF',name,a[1])
        i=next((i for i in range(min(len(a),len(b))) if a[i]!=b[i]),-1)
        print(a[max(0,i-10):i+20]); print(b[max(0,i-10):i+20])
print(ok,bad)
