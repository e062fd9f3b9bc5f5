import Verif.Cpp.Spec
import Verif.Gen.Build

/-!
# What the statements of generated code do

A specification: the calls of `schema::Schema` and the classes of types (`/repo/include/graphqlservice/internal/Schema.h`)
which C++ statements make. Everything which is not such a call, or not of the right type, is rejected (`undefined`, as C++
would not compile it).

The arguments of a call are evaluated from the last to the first, the elements of braces from the first to the last. (C++
fixes only the second; of the arguments it matters only for the addresses of new types.)
-/
namespace Verif.GenText
open Verif.Value Verif.Gen Verif.TypeSystem Verif.Cpp
open Verif.Schema.Wrap (Kind Addr)

/-- Values of expressions. -/
inductive Val where
  | text (s : Str)
  /-- a type; of a class derived from `schema::BaseType` if the kind is known -/
  | type (kind : Option Kind) (a : Addr)
  | schema
  | typeKind (k : Kind)
  | location (l : DirectiveLocation)
  | optional (s : Option Str)
  | number (n : Nat)
  | input (v : InputValue)
  | field (f : TypeSystem.Field)
  | directive (d : TypeSystem.Directive)
  | list (vs : List Val)
  | void

/-- Functions which are not members of an object. -/
inductive Fun where
  | make (k : Kind)
  | inputValue | field | directive | makeOptional
deriving DecidableEq

/-- Constants. -/
inductive Const where
  | nullopt
  | typeKind (k : Kind)
  | location (l : DirectiveLocation)
deriving DecidableEq

/-- Member functions of the schema. -/
inductive SchemaFun where
  | addType | lookupType | wrapType | addDirective | addQueryType | addMutationType | addSubscriptionType
deriving DecidableEq

/-- Member functions of types. -/
inductive TypeFun where
  | addEnumValues | addInputValues | addPossibleTypes | addFields | addInterfaces
deriving DecidableEq

def funs : List (Path × Fun) :=
  [(path "schema" ["ScalarType", "Make"], .make .scalar), (path "schema" ["EnumType", "Make"], .make .enum),
   (path "schema" ["InputObjectType", "Make"], .make .inputObject), (path "schema" ["UnionType", "Make"], .make .union),
   (path "schema" ["InterfaceType", "Make"], .make .interface), (path "schema" ["ObjectType", "Make"], .make .object),
   (path "schema" ["InputValue", "Make"], .inputValue), (path "schema" ["Field", "Make"], .field),
   (path "schema" ["Directive", "Make"], .directive), (path "std" ["make_optional"], .makeOptional)]

def consts : List (Path × Const) :=
  [(path "std" ["nullopt"], .nullopt), (path "introspection" ["TypeKind", "LIST"], .typeKind .list),
   (path "introspection" ["TypeKind", "NON_NULL"], .typeKind .nonNull)] ++
  locationNames.map fun e => (⟨str "introspection", [str "DirectiveLocation", e.1]⟩, .location e.2)

def schemaFuns : List (Str × SchemaFun) :=
  [(str "AddType", .addType), (str "LookupType", .lookupType), (str "WrapType", .wrapType),
   (str "AddDirective", .addDirective), (str "AddQueryType", .addQueryType), (str "AddMutationType", .addMutationType),
   (str "AddSubscriptionType", .addSubscriptionType)]

def typeFuns : List (Str × TypeFun) :=
  [(str "AddEnumValues", .addEnumValues), (str "AddInputValues", .addInputValues),
   (str "AddPossibleTypes", .addPossibleTypes), (str "AddFields", .addFields), (str "AddInterfaces", .addInterfaces)]

/-- A value of another type is needed. -/
def wrong {α : Type} : Build α := throw .undefined

def Val.asInput : Val → Build InputValue
  | .input v => pure v
  | _ => wrong

def Val.asField : Val → Build TypeSystem.Field
  | .field f => pure f
  | _ => wrong

def Val.asLocation : Val → Build DirectiveLocation
  | .location l => pure l
  | _ => wrong

def Val.asType : Val → Build Addr
  | .type _ a => pure a
  | _ => wrong

def Val.asInterface : Val → Build Addr
  | .type (some .interface) a => pure a
  | _ => wrong

def Val.asEnumValue : Val → Build EnumValue
  | .list [.text n, .text d, .optional r] => pure { name := n, description := d, deprecationReason := r }
  | _ => wrong

/-- `ScalarType::Make` and so on. -/
def Fun.apply : Fun → List Val → Build Val
  | .make k, [.text n, .text d] => do
    let a ← makeType k n d
    pure (.type (some k) a)
  | .inputValue, [.text n, .text d, .type _ a, .text v] =>
    pure (.input { name := n, description := d, type := a, defaultValue := v })
  | .field, [.text n, .text d, .optional r, .type _ a] =>
    pure (.field { name := n, description := d, deprecationReason := r, type := a, args := [] })
  | .field, [.text n, .text d, .optional r, .type _ a, .list vs] => do
    let args ← vs.mapM Val.asInput
    pure (.field { name := n, description := d, deprecationReason := r, type := a, args := args })
  | .directive, [.text n, .text d, .list ls] => do
    let locations ← ls.mapM Val.asLocation
    pure (.directive { name := n, description := d, locations := locations, args := [] })
  | .directive, [.text n, .text d, .list ls, .list vs] => do
    let locations ← ls.mapM Val.asLocation
    let args ← vs.mapM Val.asInput
    pure (.directive { name := n, description := d, locations := locations, args := args })
  | .makeOptional, [.text s] => pure (.optional (some s))
  | _, _ => wrong

/-- `schema->...` -/
def SchemaFun.apply : SchemaFun → List Val → Build Val
  | .addType, [.text n, .type _ a] => do call (.addType n a); pure .void
  | .lookupType, [.text n] => do
    let a ← Gen.lookupType n
    pure (.type none a)
  | .wrapType, [.typeKind k, .type _ a] => do
    let b ← Gen.wrapType k a
    pure (.type none b)
  | .addDirective, [.directive d] => do call (.addDirective d); pure .void
  | .addQueryType, [.type (some .object) a] => do call (.addQueryType a); pure .void
  | .addMutationType, [.type (some .object) a] => do call (.addMutationType a); pure .void
  | .addSubscriptionType, [.type (some .object) a] => do call (.addSubscriptionType a); pure .void
  | _, _ => wrong

/-- `type...->...` -/
def TypeFun.apply : TypeFun → Option Kind → Addr → List Val → Build Val
  | .addEnumValues, some .enum, a, [.list vs] => do
    let values ← vs.mapM Val.asEnumValue
    call (.addEnumValues a values); pure .void
  | .addInputValues, some .inputObject, a, [.list vs] => do
    let values ← vs.mapM Val.asInput
    call (.addInputValues a values); pure .void
  | .addPossibleTypes, some .union, a, [.list vs] => do
    let types ← vs.mapM Val.asType
    call (.addPossibleTypes a types); pure .void
  | .addFields, some .interface, a, [.list vs] => do
    let fields ← vs.mapM Val.asField
    call (.addFields a fields); pure .void
  | .addFields, some .object, a, [.list vs] => do
    let fields ← vs.mapM Val.asField
    call (.addFields a fields); pure .void
  | .addInterfaces, some .object, a, [.list vs] => do
    let types ← vs.mapM Val.asInterface
    call (.addInterfaces a types); pure .void
  | _, _, _, _ => wrong

/-- What is declared elsewhere: the enums of the header, in the namespace of the schema; the arrays of names, in the namespace
`service`; and functions. -/
structure Context where
  schemaNamespace : Path
  enums : List (Str × List Str)
  arrays : List (Str × List Str)
  functions : List (Str × (List Val → Build Unit)) := []

/-- Variables. -/
abbrev Vars := List (Str × Val)

/-- The path of an enumerator. -/
def Context.enumerator (C : Context) (name value : Str) : Path :=
  ⟨C.schemaNamespace.head, C.schemaNamespace.tail ++ [name, value]⟩

/-- `static_cast<size_t>(e)` of an enumerator: its position. -/
def Context.position (C : Context) (q : Path) : Build Nat :=
  match C.enums.findSome? fun e => (e.2.findIdx? fun v => C.enumerator e.1 v == q) with
  | some i => pure i
  | none => wrong

/-- An element of an array of names. -/
def Context.element (C : Context) (a : Path) (i : Nat) : Build Val :=
  match C.arrays.find? fun e => (⟨str "service", [e.1]⟩ : Path) == a with
  | some e =>
    match e.2[i]? with
    | some s => pure (.text s)
    | none => wrong
  | none => wrong

mutual
def eval (C : Context) (Γ : Vars) : Expr → Build Val
  | .name q =>
    match Γ.lookup q.head, q.tail with
    | some v, [] => pure v
    | _, _ =>
      match consts.lookup q with
      | some .nullopt => pure (.optional none)
      | some (.typeKind k) => pure (.typeKind k)
      | some (.location l) => pure (.location l)
      | none => wrong
  | .text s _ => pure (.text s)
  | .call f args => do
    let vs ← evalArgs C Γ args
    match funs.lookup f with
    | some f => f.apply vs
    | none => wrong
  | .method x m args => do
    let vs ← evalArgs C Γ args
    match Γ.lookup x with
    | some .schema =>
      match schemaFuns.lookup m with
      | some f => f.apply vs
      | none => wrong
    | some (.type k a) =>
      match typeFuns.lookup m with
      | some f => f.apply k a vs
      | none => wrong
    | _ => wrong
  | .index a i => do
    match ← eval C Γ i with
    | .number n => C.element a n
    | _ => wrong
  | .staticCast t e =>
    match e with
    | .name q => if t = word (str "size_t") then do pure (.number (← C.position q)) else wrong
    | _ => wrong
  | .pointerCast t e => do
    match ← eval C Γ e with
    | .type _ a => if t = path "schema" ["InterfaceType"] then pure (.type (some .interface) a) else wrong
    | _ => wrong
  | .braces es => do
    let vs ← evalList C Γ es
    pure (.list vs)
termination_by structural e => e
/-- From the last to the first. -/
def evalArgs (C : Context) (Γ : Vars) : List Expr → Build (List Val)
  | [] => pure []
  | e :: es => do
    let vs ← evalArgs C Γ es
    let v ← eval C Γ e
    pure (v :: vs)
termination_by structural es => es
/-- From the first to the last. -/
def evalList (C : Context) (Γ : Vars) : List Expr → Build (List Val)
  | [] => pure []
  | e :: es => do
    let v ← eval C Γ e
    let vs ← evalList C Γ es
    pure (v :: vs)
termination_by structural es => es
end

/-- One statement. A variable cannot be declared twice; functions are called in statements only. -/
def runStmt (C : Context) (Γ : Vars) : Stmt → Build Vars
  | .expr (.call ⟨f, []⟩ args) => do
    let vs ← evalArgs C Γ args
    match C.functions.lookup f with
    | some body => do body vs; pure Γ
    | none => wrong
  | .expr e => do
    let _ ← eval C Γ e
    pure Γ
  | .auto x e => do
    let v ← eval C Γ e
    match Γ.lookup x with
    | some _ => wrong
    | none => pure (Γ ++ [(x, v)])

/-- Statements one after the other. -/
def runStmts (C : Context) (Γ : Vars) : List Stmt → Build Vars
  | [] => pure Γ
  | s :: ss => do
    let Γ ← runStmt C Γ s
    runStmts C Γ ss

/-- A value can be passed for a parameter. -/
def Val.fits : Val → Param → Bool
  | .schema, q => q.byReference && q.type == path "schema" ["Schema"]
  | .type (some .object) _, q => !q.byReference && q.type == path "schema" ["ObjectType"]
  | _, _ => false

/-- A call of a function with these parameters and this body. -/
def runFunction (C : Context) (params : List Param) (body : List Stmt) (vs : List Val) : Build Unit :=
  if vs.length = params.length ∧ (params.map (·.name)).Nodup ∧ (vs.zip params).all fun e => e.1.fits e.2 then do
    let _ ← runStmts C ((params.map (·.name)).zip vs) body
    pure ()
  else wrong

/-! ## Whole programs -/

/-- The enums which declarations declare. -/
def enumsOf : List Decl → List (Str × List Str)
  | [] => []
  | .enumClass n vs :: ds => (n, vs) :: enumsOf ds
  | _ :: ds => enumsOf ds

/-- The arrays which declarations declare. -/
def arraysOf : List Decl → List (Str × List Str)
  | [] => []
  | .array _ n vs :: ds => (n, vs) :: arraysOf ds
  | _ :: ds => arraysOf ds

/-- The functions which declarations declare, in a context without functions. -/
def functionsOf (C : Context) : List Decl → List (Str × (List Val → Build Unit))
  | [] => []
  | .function n ps b :: ds => (n, runFunction C ps b) :: functionsOf C ds
  | _ :: ds => functionsOf C ds

/-- The names of functions. -/
def functionNames : List Decl → List Str
  | [] => []
  | .function n _ _ :: ds => n :: functionNames ds
  | _ :: ds => functionNames ds

/-- A compiler accepts the declarations: nothing is declared twice, and the arrays have as many elements as they say. -/
def Accepted (ds : List Decl) : Prop :=
  ((enumsOf ds).map (·.1)).Nodup ∧ (∀ e ∈ enumsOf ds, e.2.Nodup) ∧ ((arraysOf ds).map (·.1)).Nodup ∧
  (∀ n a vs, Decl.array n a vs ∈ ds → vs.length = n) ∧ (functionNames ds).Nodup

/-- What the function can use. -/
def contextOf (ns : Path) (enums arrays functions : List Decl) : Context :=
  let C : Context := { schemaNamespace := ns, enums := enumsOf enums, arrays := arraysOf arrays }
  { C with functions := functionsOf C functions }

/-- The written code: the enums of the header, the arrays of names, the functions in other files, and `AddTypesToSchema`. -/
structure Program where
  enums : Str
  arrays : Str
  functions : Str
  main : Str

/-- A compiler reads and accepts the code, and a call of `AddTypesToSchema` for a schema does this. -/
inductive Means (ns : Path) (P : Program) : Build Unit → Prop where
  | run {enums arrays functions : List Decl} {params : List Param} {body : List Stmt} :
    Reads P.enums enums → Reads P.arrays arrays → Reads P.functions functions →
    Reads P.main [.function (str "AddTypesToSchema") params body] →
    Accepted (enums ++ arrays ++ functions ++ [.function (str "AddTypesToSchema") params body]) →
    Means ns P (runFunction (contextOf ns enums arrays functions) params body [.schema])

end Verif.GenText
