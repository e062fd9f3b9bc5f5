import Verif.Gen.Types
import Verif.Grammar.Spec
import Mathlib.Logic.Function.Basic

/-!
# C++ names and scopes of generated code

Models `SchemaLoader::getSafeCppName` (`/repo/src/SchemaLoader.cpp:1035-1069`) and `/repo/src/GeneratorUtil.cpp`.
-/
namespace Verif.Gen
open Verif.Value

/-! ## Names -/

/-- `_` -/
def underscore : Byte := 0x5F

/-- `[A-Z]` -/
def isCapital (c : Byte) : Bool := 0x41 ≤ c.toNat && c.toNat ≤ 0x5A

/-- `std::regex_search(s, multiple_)`, with `_{2,}` -/
def hasMultiple : Str → Bool
  | a :: b :: s => (a == underscore && b == underscore) || hasMultiple (b :: s)
  | _ => false

/-- `std::regex_search(s, leading_Capital)`, with `^_([A-Z])` -/
def hasLeadingCapital : Str → Bool
  | a :: b :: _ => a == underscore && isCapital b
  | _ => false

/-- `std::regex_replace(s, multiple_, "_")`: one `_` for each run of several. (The run is as long as possible, so that the
others of the run are dropped; `after`: the byte before was a `_`.) -/
def replaceMultiple (after : Bool) : Str → Str
  | [] => []
  | c :: s =>
    if c == underscore then
      if after then replaceMultiple true s else c :: replaceMultiple true s
    else c :: replaceMultiple false s

/-- `std::regex_replace(s, leading_Capital, "$1")`: `^` matches only at the beginning of the whole text. -/
def replaceLeadingCapital : Str → Str
  | a :: b :: s => if a == underscore && isCapital b then b :: s else a :: b :: s
  | s => s

/-- `safeNames`: the replaced names. -/
abbrev SafeNames := Str → Option Str

/-- `SchemaLoader::getSafeCppName`, SchemaLoader.cpp:1035-1069, with the static cache before and after. -/
def getSafeCppName (safeNames : SafeNames) (type : Str) : Str × SafeNames :=
  match safeNames type with
  | some cppName => (cppName, safeNames)
  | none =>
    if hasMultiple type || hasLeadingCapital type then
      let cppName := replaceLeadingCapital (replaceMultiple false type)
      (cppName, Function.update safeNames type (some cppName))
    else (type, safeNames)

/-- Calls, one after the other. -/
def getSafeCppNames : SafeNames → List Str → List Str × SafeNames
  | safeNames, [] => ([], safeNames)
  | safeNames, type :: types =>
    let r := getSafeCppName safeNames type
    let rs := getSafeCppNames r.2 types
    (r.1 :: rs.1, rs.2)

/-! ## Scopes -/

/-- `std::toupper` of a byte, in the "C" locale. -/
def toUpper (c : Byte) : Byte := if 0x61 ≤ c.toNat ∧ c.toNat ≤ 0x7A then BitVec.ofNat 8 (c.toNat - 0x20) else c

/-- `_includeGuardName`, GeneratorUtil.cpp:14-25 -/
def includeGuardName (fileName : Str) : Str := fileName.map fun c => if c == 0x2E then underscore else toUpper c

/-- What is written to a file: the beginning or end of a namespace, or anything else. -/
inductive Event where
  | open (name : Str)
  | close (name : Str)
  | other (text : Str)
deriving DecidableEq

/-- The text, GeneratorUtil.cpp:80-89, 101-110. -/
def Event.text : Event → Str
  | .open name => if name.isEmpty then str "namespace {\n" else str "namespace " ++ name ++ str " {\n"
  | .close name => if name.isEmpty then str "} // namespace\n" else str "} // namespace " ++ name ++ str "\n"
  | .other text => text

/-- `NamespaceScope`, GeneratorUtil.h:27-44. Moving is not modelled (it is not used). -/
structure NamespaceScope where
  name : Str
  inside : Bool := false

/-- `NamespaceScope::enter`, GeneratorUtil.cpp:74-95 -/
def NamespaceScope.enter (s : NamespaceScope) : NamespaceScope × List Event :=
  if s.inside then (s, []) else ({ s with inside := true }, [.open s.name])

/-- `NamespaceScope::exit`, GeneratorUtil.cpp:97-117 -/
def NamespaceScope.exit (s : NamespaceScope) : NamespaceScope × List Event :=
  if s.inside then ({ s with inside := false }, [.close s.name]) else (s, [])

/-- `NamespaceScope::NamespaceScope`, GeneratorUtil.cpp:50-59 -/
def NamespaceScope.make (name : Str) (deferred : Bool) : NamespaceScope × List Event :=
  let s : NamespaceScope := { name := name }
  if deferred then (s, []) else s.enter

/-- C++ statements, as far as they have to do with namespaces: writing text, calls of `enter` and `exit` of the scope
with the number `i`, counted from the outside, and the declaration of a scope with the statements up to the end of the
block. -/
inductive Stmt where
  | text (s : Str)
  | enter (i : Nat)
  | exit (i : Nat)
  | scope (name : Str) (deferred : Bool) (body : List Stmt)

/-- Apply a method to the scope with the number `i`. -/
def onScope (f : NamespaceScope → NamespaceScope × List Event) :
    Nat → List NamespaceScope → List NamespaceScope × List Event
  | _, [] => ([], [])
  | 0, s :: rest => let r := f s; (r.1 :: rest, r.2)
  | i + 1, s :: rest => let r := onScope f i rest; (s :: r.1, r.2)

mutual
/-- Run a statement with these scopes (the outermost first). At the end of a block the destructor leaves the scope,
GeneratorUtil.cpp:69-72. -/
def Stmt.run (scopes : List NamespaceScope) : Stmt → List NamespaceScope × List Event
  | .text s => (scopes, [.other s])
  | .enter i => onScope NamespaceScope.enter i scopes
  | .exit i => onScope NamespaceScope.exit i scopes
  | .scope name deferred body =>
    let made := NamespaceScope.make name deferred
    let ran := runAll (scopes ++ [made.1]) body
    let left := onScope NamespaceScope.exit scopes.length ran.1
    (left.1.take scopes.length, made.2 ++ ran.2 ++ left.2)
/-- Run statements one after the other. -/
def runAll (scopes : List NamespaceScope) : List Stmt → List NamespaceScope × List Event
  | [] => (scopes, [])
  | s :: rest =>
    let r := Stmt.run scopes s
    let rs := runAll r.1 rest
    (rs.1, r.2 ++ rs.2)
end

/-! ## The namespaces of the generated files -/

/-- `if (condition) { ... }` -/
def when (c : Bool) (body : List Stmt) : List Stmt := if c then body else []

/-- What matters of a schema and the options to the namespaces; `text i` is the text written at the point `i`. -/
structure Shape where
  introspection : Bool
  separateFiles : Bool
  enums : Bool
  inputs : Bool
  objects : Bool
  interfaces : Bool
  schemaNamespace : Str
  clientNamespace : Str := str "graphql::client"
  requestNamespace : Str
  text : Nat → Str

/-- `schemagen`'s `Generator::outputHeader`, SchemaGenerator.cpp:183-440. -/
def Shape.schemaHeader (g : Shape) : List Stmt :=
  [.scope (str "graphql") false
    [.scope g.schemaNamespace false
      [.scope (str "object") true
        (when g.enums [.text (g.text 0)] ++ when g.inputs [.text (g.text 1)] ++
         when g.objects [.enter 2, .text (g.text 2)] ++
         when g.interfaces [.exit 2, .text (g.text 3)] ++
         when (g.objects && !g.separateFiles) [.enter 2, .text (g.text 4)] ++
         [.exit 2] ++ [.text (g.text 5)] ++
         when (g.introspection && (g.enums || g.inputs)) [.exit 1, .scope (str "service") false [.text (g.text 6)]] ++
         when (!g.introspection) [.text (g.text 7)])]]]

/-- `schemagen`'s `Generator::outputSource`, SchemaGenerator.cpp:599-1357. -/
def Shape.schemaSource (g : Shape) : List Stmt :=
  [.scope (str "graphql") false
    (when (g.enums || g.inputs) [.scope (str "service") false [.text (g.text 0), .exit 1, .text (g.text 1)]] ++
     [.scope g.schemaNamespace false
       (when (g.objects && !g.separateFiles) [.scope (str "object") false [.text (g.text 2)]] ++ [.text (g.text 3)])])]

/-- `schemagen`'s separate header of an object, SchemaGenerator.cpp:2119-2124. -/
def Shape.objectHeader (g : Shape) : List Stmt :=
  [.scope (str "graphql::" ++ g.schemaNamespace ++ str "::object") false [.text (g.text 0)]]

/-- `schemagen`'s separate source of an object, SchemaGenerator.cpp:2155-2174. -/
def Shape.objectSource (g : Shape) : List Stmt :=
  [.scope (str "graphql::" ++ g.schemaNamespace) false
    [.scope (str "object") false [.text (g.text 0), .exit 1, .text (g.text 1)]]]

/-- `clientgen`'s `Generator::outputHeader`, ClientGenerator.cpp:216-333. -/
def Shape.clientHeader (g : Shape) : List Stmt :=
  [.scope (g.clientNamespace ++ str "::" ++ g.requestNamespace) false [.text (g.text 0)]]

/-- `clientgen`'s `Generator::outputSource`, ClientGenerator.cpp:463-683. -/
def Shape.clientSource (g : Shape) : List Stmt :=
  [.scope g.clientNamespace false [.text (g.text 0), .scope g.requestNamespace false [.text (g.text 1)]]]

/-- The files. -/
def Shape.files (g : Shape) : List (List Stmt) :=
  [g.schemaHeader, g.schemaSource, g.objectHeader, g.objectSource, g.clientHeader, g.clientSource]

end Verif.Gen
