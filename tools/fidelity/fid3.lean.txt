import Verif.GenText.Model
import Verif.View.Claims
import Verif.Grammar.SchemaExamples
open Verif Verif.Value Verif.Peg Verif.Gen Verif.GenText
def ofBytes (b : ByteArray) : List (BitVec 8) := b.toList.map fun x => BitVec.ofNat 8 x.toNat
def toB (s : List (BitVec 8)) : ByteArray := ⟨(s.map fun b => UInt8.ofNat b.toNat).toArray⟩
def treeO (r : Option (Res R)) : Option (List (Node R)) := match r with | some (.ok ns _) => some ns | _ => none
def go (file : String) (o : Options) (out : String) : IO Unit := do
  let s := ofBytes (← IO.FS.readBinFile file)
  let some ns := treeO (run grammar schemaSelector 1000000 (.ref .schema_document) s) | IO.println "schema parse failed"
  let some defs := readSchema (fun _ => .nan) id s ns | IO.println "schema read failed"
  match loadSchema id o.isIntrospection defs with
  | .error e => IO.println "load error"
  | .ok l =>
    IO.FS.writeBinFile (out ++ ".fn") (toB (functionText o l))
    IO.FS.writeBinFile (out ++ ".enums") (toB (enumClasses l))
    IO.FS.writeBinFile (out ++ ".get") (toB (getSchemaText o))
    for t in l.enumTypes do IO.FS.writeBinFile (out ++ "." ++ String.ofList (t.type.map fun b => Char.ofNat b.toNat) ++ ".names") (toB (namesArray t))
    for t in l.objectTypes do IO.FS.writeBinFile (out ++ "." ++ String.ofList (t.type.map fun b => Char.ofNat b.toNat) ++ ".details") (toB (objectFunctionText o t))
#eval go "/repo/samples/schema.today.graphql" { schemaNamespace := str "today" } "/tmp/fid/g/unified"
#eval go "/repo/samples/schema.today.graphql" { schemaNamespace := str "today", noIntrospection := true } "/tmp/fid/g/unified_nointrospection"
#eval go "/repo/samples/schema.today.graphql" { schemaNamespace := str "today", separateFiles := true } "/tmp/fid/g/separate"
#eval go "/repo/samples/schema.today.graphql" { schemaNamespace := str "today", separateFiles := true, noIntrospection := true } "/tmp/fid/g/separate_nointrospection"
#eval go "/repo/samples/schema.validation.graphql" { schemaNamespace := str "validation" } "/tmp/fid/g/validation"
#eval (do
  let o : Options := { schemaNamespace := str "introspection", isIntrospection := true }
  let l := { Introspect.types with scalarTypes := [] }
  IO.FS.writeBinFile "/tmp/fid/g/introspection.fn" (toB (functionText o l))
  IO.FS.writeBinFile "/tmp/fid/g/introspection.enums" (toB (enumClasses l))
  for t in l.enumTypes do IO.FS.writeBinFile ("/tmp/fid/g/introspection." ++ String.ofList (t.type.map fun b => Char.ofNat b.toNat) ++ ".names") (toB (namesArray t)) : IO Unit)
