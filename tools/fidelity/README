Comparison of the model with data of /repo; not part of the proofs. The files *.lean.txt are run with
`cd /verif/lean && lake env lean FILE` after the build (copy them to a name which ends with .lean, outside /verif); they expect
cases.txt and docs.txt in /tmp/fid and write to /tmp/fid/g.

fid   every document of test/ValidationTests.cpp (cases.txt: name, document, expected errors in hexadecimal, number of
      errors): the model finds the same errors in the same order, with the same messages and locations.
fid2  the documents of test/TodayTests.cpp, NoIntrospectionTests.cpp and PegtlExecutableTests.cpp (docs.txt) parse, and are
      valid where the tests expect it.
fid3  the text of GenText/Model.lean for samples/schema.today.graphql (all four modes), samples/schema.validation.graphql and
      samples' introspection schema; cmp.py looks for each piece in the generated files of /repo/samples and /repo/src,
      where all of them occur byte for byte.
