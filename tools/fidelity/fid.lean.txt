import Verif.View.Claims
import Verif.Grammar.SchemaExamples
import Verif.Grammar.Documents
import Verif.Validation.Model
open Verif Verif.Value Verif.Peg Verif.Gen
def ofBytes (b : ByteArray) : List (BitVec 8) := b.toList.map fun x => BitVec.ofNat 8 x.toNat
def hexv (c : Char) : Nat := if c.isDigit then c.toNat - 48 else c.toNat - 87
def unhex : List Char → List (BitVec 8)
  | a :: b :: r => BitVec.ofNat 8 (hexv a * 16 + hexv b) :: unhex r
  | _ => []
def toS (s : List (BitVec 8)) : String := String.ofList (s.map fun b => Char.ofNat b.toNat)
def treeO (r : Option (Res R)) : Option (List (Node R)) := match r with | some (.ok ns _) => some ns | _ => none
def main : IO Unit := do
  let b ← IO.FS.readBinFile "/repo/samples/schema.validation.graphql"
  let s := ofBytes b
  let some ns := treeO (run grammar schemaSelector 100000 (.ref .schema_document) s) | IO.println "schema parse failed"
  let some defs := readSchema (fun _ => .nan) id s ns | IO.println "schema read failed"
  match loadSchema id false defs with
  | .error e => IO.println "load error"
  | .ok l =>
    let S := View.declared true l
    let lines ← IO.FS.lines "/tmp/fid/cases.txt"
    for line in lines do
      let parts := line.splitOn "\t"
      let name := parts[0]!
      let q := unhex parts[1]!.toList
      let exp := if parts[2]! = "" then [] else parts[2]!.splitOn "|" |>.map fun x => toS (unhex x.toList)
      let ns := match treeO (run grammar executableSelector 100000 (.ref .executable_document) q) with
        | some ns => some ns
        | none => treeO (run grammar executableSelector 100000 (.ref .mixed_document) q)
      match ns with
      | none => IO.println s!"{name}: PARSE FAILED"
      | some ns =>
        match readDocument (fun _ => .nan) id q ns with
        | none => IO.println s!"{name}: READ FAILED"
        | some d =>
          let msgs := (Validation.validate S id d {}).1.map toS
          let n := parts[3]!.toNat!; let ix := if parts[4]! = "" then [] else (parts[4]!.splitOn "|").map String.toNat!
          let ok := msgs.length == n && (ix.zip exp).all fun (i, e) => e.startsWith ("{\"message\":\"" ++ (msgs[i]?.getD "??") ++ "\"")
          if ok then IO.println s!"{name}: ok {exp.length}" else IO.println s!"{name}: DIFFERS {msgs} vs {exp}"
#eval main
