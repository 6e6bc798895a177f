# Comparison of the modelled Python code with the generated code

`/repo/test_cases/**/py/test_generate` holds the Python code which mapry generated for the schemas of its test cases. The
scripts print the code of the model (`Verif/PyGen.lean`) for the same schemas and compare the two as syntax trees. Annotations
and docstrings are ignored, as are `Error`, `Errors`, `_duration_from_string` and `_duration_to_string`, which do not depend on
the schema and are modelled elsewhere (`Errors`, `Duration`). Nothing of mapry is run.

    cd /verif/lean && lake build Verif.PyPrint
    python3 /verif/fidelity/gen.py /tmp/All.lean
    lake env lean /tmp/All.lean > /tmp/out.txt
    python3 /verif/fidelity/cmp.py /tmp/out.txt

The last line gives the number of functions and classes which agree and which differ: `306 0` over 54 schemas.

# Comparison of the modelled Go code with the generated code

The same for `/repo/test_cases/**/go/test_generate/from_jsonable.go` and `to_jsonable.go` and the code of `Verif/GoGen.lean`, token
by token. Types are compared only in type assertions; `durationFromString`, `addDuration` and `durationToString` are modelled
elsewhere (`Duration`). `cmp_go.py` says what else is ignored.

    cd /verif/lean && lake build Verif.GoPrint
    python3 /verif/fidelity/gen_go.py /tmp/AllGo.lean
    lake env lean /tmp/AllGo.lean > /tmp/outgo.txt
    python3 /verif/fidelity/cmp_go.py /tmp/outgo.txt

The last line gives the number of functions which agree and which differ: `140 0` over 52 schemas.

# Comparison of the modelled C++ code of the serializer with the generated code

The same for the functions `serialize_*` in `/repo/test_cases/**/cpp/test_generate/jsoncpp.cpp` and the code of `Verif/CppGen.lean`, token
by token including the types.

    cd /verif/lean && lake build Verif.CppPrint
    python3 /verif/fidelity/gen_cpp.py /tmp/AllCpp.lean
    lake env lean /tmp/AllCpp.lean > /tmp/outcpp.txt
    python3 /verif/fidelity/cmp_cpp.py /tmp/outcpp.txt

The last line gives the number of functions which agree and which differ: `80 0` over 60 schemas.

# Comparison of the modelled C++ code of the parser with the generated code

The same for the functions `*_from` in `/repo/test_cases/**/cpp/test_generate/jsoncpp.cpp` and the code of `Verif/CppReadGen.lean` and
`Verif/CppReadGraph.lean`, token by token. `cmp_cpp_read.py` says what is left out or rewritten before.

    cd /verif/lean && lake build Verif.CppReadPrint
    python3 /verif/fidelity/gen_cpp_read.py /tmp/AllCppRead.lean
    lake env lean /tmp/AllCppRead.lean > /tmp/outcppread.txt
    python3 /verif/fidelity/cmp_cpp_read.py /tmp/outcppread.txt

The last line gives the number of functions which agree and which differ: `80 0` over 60 schemas.
