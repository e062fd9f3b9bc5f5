import Verif.GenText.Model
import Verif.GenText.Calls

/-!
# The statements which the written text is meant to be

Used in the proofs only: the syntax of the text of `Verif.GenText.Model`.
-/
namespace Verif.GenText
open Verif.Value Verif.Gen Verif.Modifiers Verif.Cpp
open Verif.Schema.Wrap (Kind)

def typeVar (n : Str) : Str := str "type" ++ cpp n
def schemaVar : Str := str "schema"

def gqlE (s : Str) : Expr := .text s true

def lookupE (type : Str) (view : Bool) : Expr := .method schemaVar (str "LookupType") [.text type view]
def nonNullE (e : Expr) : Expr :=
  .method schemaVar (str "WrapType") [.name (path "introspection" ["TypeKind", "NON_NULL"]), e]
def listE (e : Expr) : Expr := .method schemaVar (str "WrapType") [.name (path "introspection" ["TypeKind", "LIST"]), e]

def typeE : Bool → List Mod → Str → Expr
  | nonNull, [], t => if nonNull then nonNullE (lookupE t false) else lookupE t false
  | nonNull, .list :: ms, t => if nonNull then nonNullE (listE (typeE true ms t)) else listE (typeE true ms t)
  | _, .nullable :: ms, t => typeE false ms t

def deprecationE : Option Str → Expr
  | some r => .call (path "std" ["make_optional"]) [.text r true]
  | none => .name (path "std" ["nullopt"])

def inputE (f : InputField) : Expr :=
  .call (path "schema" ["InputValue", "Make"])
    [.text f.name true, .text f.description true, typeE true f.modifiers f.type, .text f.defaultValueString true]

def fieldE (f : OutputField) : Expr :=
  .call (path "schema" ["Field", "Make"])
    ([.text f.name true, .text f.description true, deprecationE f.deprecationReason, typeE true f.modifiers f.type] ++
      if f.arguments.isEmpty then [] else [.braces (f.arguments.map inputE)])

def enumeratorP (ns : Path) (t v : Str) : Path := ⟨ns.head, ns.tail ++ [t, v]⟩

def enumValueE (ns : Path) (t : EnumType) (v : EnumValueType) : Expr :=
  .braces [.index ⟨str "service", [str "s_names" ++ cpp t.type]⟩
      (.staticCast (word (str "size_t")) (.name (enumeratorP ns (cpp t.type) (cpp v.value)))),
    .text v.description true, deprecationE v.deprecationReason]

def onType (n : Str) (m : String) (es : List Expr) : List Cpp.Stmt :=
  if es.isEmpty then [] else [.expr (.method (typeVar n) (str m) [.braces es])]

def scalarS (t : ScalarType) : Cpp.Stmt :=
  .expr (.method schemaVar (str "AddType")
    [.text t.type true, .call (path "schema" ["ScalarType", "Make"]) [.text t.type true, .text t.description false]])

def declareS (k : Kind) (t : Str × Str) : List Cpp.Stmt :=
  [.auto (typeVar t.1) (.call ⟨str "schema", [className k, str "Make"]⟩ [.text t.1 true, .text t.2 (decide (k ≠ .object))]),
   .expr (.method schemaVar (str "AddType") [.text t.1 true, .name (word (typeVar t.1))])]

def enumS (ns : Path) (t : EnumType) : List Cpp.Stmt := onType t.type "AddEnumValues" (t.values.map (enumValueE ns t))
def inputS (t : InputType) : List Cpp.Stmt := onType t.type "AddInputValues" (t.fields.map inputE)
def unionS (t : UnionType) : List Cpp.Stmt := onType t.type "AddPossibleTypes" (t.options.map fun n => lookupE n true)
def fieldsS (n : Str) (fs : List OutputField) : List Cpp.Stmt := onType n "AddFields" (fs.map fieldE)

def interfaceE (separate : Bool) (n : Str) : Expr :=
  if separate then .pointerCast (path "schema" ["InterfaceType"]) (lookupE n true) else .name (word (typeVar n))

def interfacesS (separate : Bool) (t : ObjectType) : List Cpp.Stmt :=
  onType t.type "AddInterfaces" (t.interfaces.map (interfaceE separate))

def objectS (separate : Bool) (t : ObjectType) : List Cpp.Stmt := interfacesS separate t ++ fieldsS t.type t.fields

def detailsName (t : ObjectType) : Str := str "Add" ++ cpp t.type ++ str "Details"

def objectCallS (t : ObjectType) : Cpp.Stmt :=
  .expr (.call (word (detailsName t)) [.name (word (typeVar t.type)), .name (word schemaVar)])

def locationE (n : Str) : Expr := .name ⟨str "introspection", [str "DirectiveLocation", n]⟩

def directiveE (d : DirectiveType) : Expr :=
  .call (path "schema" ["Directive", "Make"])
    ([.text d.name true, .text d.description true, .braces (d.locations.map locationE)] ++
      if d.arguments.isEmpty then [] else [.braces (d.arguments.map inputE)])

def directiveS (d : DirectiveType) : Cpp.Stmt := .expr (.method schemaVar (str "AddDirective") [directiveE d])

def operationS (o : OperationType) : Cpp.Stmt :=
  .expr (.method schemaVar (str "Add" ++ capitalised o.operation ++ str "Type") [.name (word (typeVar o.type))])

def declarations (l : Loader) : List Cpp.Stmt :=
  l.scalarTypes.map scalarS ++
  l.enumTypes.flatMap (fun t => declareS .enum (t.type, t.description)) ++
  l.inputTypes.flatMap (fun t => declareS .inputObject (t.type, t.description)) ++
  l.unionTypes.flatMap (fun t => declareS .union (t.type, t.description)) ++
  l.interfaceTypes.flatMap (fun t => declareS .interface (t.type, t.description)) ++
  l.objectTypes.flatMap (fun t => declareS .object (t.type, t.description))

def details (ns : Path) (separate : Bool) (l : Loader) : List Cpp.Stmt :=
  l.enumTypes.flatMap (enumS ns) ++ l.inputTypes.flatMap inputS ++ l.unionTypes.flatMap unionS ++
  l.interfaceTypes.flatMap (fun t => fieldsS t.type t.fields) ++
  (if separate then l.objectTypes.map objectCallS else l.objectTypes.flatMap (objectS false)) ++
  l.directives.map directiveS ++ l.operationTypes.map operationS

def body (ns : Path) (separate : Bool) (l : Loader) : List Cpp.Stmt := declarations l ++ details ns separate l

end Verif.GenText
