"""Write a Lean file which prints the modelled C++ code of the serializer of every schema among the test cases."""
import json,glob,os,sys
sys.argv,argv=[sys.argv[0],os.devnull],sys.argv
sys.path.insert(0,os.path.dirname(os.path.abspath(__file__)))
from gen import lean
out=['import Verif.CppPrint\nopen Mapry']
for f in sorted(glob.glob('/repo/test_cases/**/schema.json',recursive=True)):
    g=os.path.dirname(f)+'/cpp/test_generate'
    if os.path.isdir(g):
        out.append('#eval Mapry.CppPrint.show\' "%s" (%s)'%(g,lean(json.load(open(f)))))
open(argv[1],'w').write('\n'.join(out))
print(len(out)-1)
