"""Compare the printed code with the generated code in the repository as syntax trees, without annotations and docstrings."""
import ast,sys,re
txt=open(sys.argv[1]).read()
def norm(tree):
    class N(ast.NodeTransformer):
        def visit_FunctionDef(s,n):
            s.generic_visit(n); n.returns=None
            for a in n.args.args: a.annotation=None
            n.body=strip(n.body); return n
        def visit_ClassDef(s,n):
            s.generic_visit(n); n.body=strip(n.body); return n
        def visit_If(s,n):
            s.generic_visit(n); n.body=strip(n.body); n.orelse=strip(n.orelse,True); return n
        def visit_For(s,n):
            s.generic_visit(n); n.body=strip(n.body); return n
        def visit_Return(s,n):
            if n.value is None: n.value=ast.Constant(value=None)
            return s.generic_visit(n)
        def visit_UnaryOp(s,n):
            s.generic_visit(n)
            return n
    def strip(b,empty=False):
        b=[x for x in b if not isinstance(x,ast.Pass) and not (isinstance(x,ast.Expr) and isinstance(x.value,ast.Constant))]
        return b if b or empty else [ast.Pass()]
    return N().visit(tree)
def items(src):
    t=norm(ast.parse(src)); r={}
    order=[]
    for x in t.body:
        if isinstance(x,(ast.FunctionDef,ast.ClassDef)):
            if x.name in('Error','Errors','_duration_from_string','_duration_to_string'): continue
            r[x.name]=ast.dump(x); order.append(x.name)
    return r,order
ok=bad=0
for sec in txt.split('#### ')[1:]:
    name,body=sec.split('\n',1)
    if 'ERROR' in body: print('ERR',name,body[:50]); bad+=1; continue
    for part in body.split('## ')[1:]:
        mod,src=part.split('\n',1)
        gold,go=items(open(name+'/'+mod+'.py').read())
        mine,mo=items(src)
        if go!=mo: print('ORDER',name,mod,go,mo); bad+=1
        for k in gold:
            if mine.get(k)==gold[k]: ok+=1
            else:
                bad+=1; print('DIFF',name,mod,k)
                if bad<4: print(gold[k]); print(mine.get(k))
print(ok,bad)
