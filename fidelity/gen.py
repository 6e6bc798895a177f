"""Write a Lean file which prints the modelled Python code of every schema among the test cases."""
import json,glob,os,sys
def lean(v):
    if v is None: return '.null'
    if v is True: return '.bool true'
    if v is False: return '.bool false'
    if isinstance(v,int): return '.int (%d)'%v
    if isinstance(v,float):
        from fractions import Fraction
        f=Fraction(v); return '.float (.fin ((%d : Rat) / %d))'%(f.numerator,f.denominator)
    if isinstance(v,str): return '.str ("%s".toList)'%lit(v)
    if isinstance(v,list): return '.arr [%s]'%', '.join(lean(x) for x in v)
    return '.obj true [%s]'%', '.join('("%s".toList, %s)'%(lit(k),lean(x)) for k,x in v.items())
def lit(s): return ''.join(c if c.isalnum() and ord(c)<128 or c in " _-.,:" else '\\u%04x'%ord(c) for c in s)
out=['import Verif.PyPrint\nopen Mapry']
names=[]
for f in sorted(glob.glob('/repo/test_cases/**/schema.json',recursive=True)):
    d=os.path.dirname(f)
    g=d+'/py/test_generate'
    if not os.path.isdir(g): continue
    j=json.load(open(f))
    names.append(g)
    out.append('#eval Mapry.PyPrint.show\' "%s" (%s)'%(g,lean(j)))
open(sys.argv[1],'w').write('\n'.join(out))
print(len(names))
