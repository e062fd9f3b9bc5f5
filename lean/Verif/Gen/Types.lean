import Verif.Modifiers.Model
import Verif.Schema.Identity

/-!
# Types in the generators

How `schemagen` and `clientgen` take apart the type references of a document, and write them as C++ types, as modifiers of
`ModifiedArgument`/`ModifiedResult`/`ModifiedVariable`/`ModifiedResponse`, and as types of the introspection schema.

Simplification: `TypeModifier::None` is never put on the stack of modifiers (GeneratorLoader.cpp:28-56,
RequestLoader.cpp:223-261), so that there are only `nullable` and `list`.
-/
namespace Verif.Gen
open Verif.Value Verif.Ast Verif.Modifiers Verif.TypeSystem
open Verif.Schema.Wrap (Kind Addr)

/-! ## Type references of a document -/

/-- `TypeVisitor`, GeneratorLoader.h:34-49 -/
structure TypeVisitor where
  type : Str := []
  modifiers : List Mod := []
  nonNull : Bool := false

/-- `TypeVisitor::visit`, GeneratorLoader.cpp:12-56 -/
def TypeVisitor.visit (v : TypeVisitor) : TypeRef → TypeVisitor
  | .nonNull of => TypeVisitor.visit { v with nonNull := true } of
  | .list of =>
    let modifiers := if v.nonNull then v.modifiers else v.modifiers ++ [.nullable]
    TypeVisitor.visit { v with nonNull := false, modifiers := modifiers ++ [.list] } of
  | .named name =>
    { v with type := name, modifiers := if v.nonNull then v.modifiers else v.modifiers ++ [.nullable] }

/-- A new `TypeVisitor`, `visit` and `getType`, GeneratorLoader.cpp:58-61. -/
def getType (τ : TypeRef) : Str × List Mod :=
  let v := TypeVisitor.visit {} τ
  (v.type, v.modifiers)

/-! ## Types of the introspection schema -/

/-- `Schema::WrapType` with an unused address. -/
def WrapType (s : Schema) (k : Kind) (a : Addr) (s' : Schema) (b : Addr) : Prop :=
  ∃ fresh, s.store fresh = none ∧ s.wrapType k a fresh = (s', b)

/-- The loop of `RequestLoader::getSchemaType`, from the last modifier to the first: the schema, the type and `nonNull`
after it. -/
inductive SchemaTypeLoop (type : Str) (s : Schema) : List Mod → Schema → Addr → Bool → Prop where
  | start {a} : s.lookupType type = .ok a → SchemaTypeLoop type s [] s a true
  | nullable {ms s₁ a nonNull} : SchemaTypeLoop type s ms s₁ a nonNull →
      SchemaTypeLoop type s (.nullable :: ms) s₁ a false
  | list {ms s₁ a s₂ b} : SchemaTypeLoop type s ms s₁ a false → WrapType s₁ .list a s₂ b →
      SchemaTypeLoop type s (.list :: ms) s₂ b true
  | nonNullList {ms s₁ a s₂ b s₃ c} : SchemaTypeLoop type s ms s₁ a true → WrapType s₁ .nonNull a s₂ b →
      WrapType s₂ .list b s₃ c → SchemaTypeLoop type s (.list :: ms) s₃ c true

/-- `RequestLoader::getSchemaType`, RequestLoader.cpp:567-624 -/
inductive GetSchemaType (type : Str) (modifiers : List Mod) (s : Schema) : Schema → Addr → Prop where
  | nullable {s₁ a} : SchemaTypeLoop type s modifiers s₁ a false → GetSchemaType type modifiers s s₁ a
  | nonNull {s₁ a s₂ b} : SchemaTypeLoop type s modifiers s₁ a true → WrapType s₁ .nonNull a s₂ b →
      GetSchemaType type modifiers s s₂ b

/-- The loop of `RequestLoader::unwrapSchemaType`, RequestLoader.cpp:223-261: the type it ends with, and the modifiers it
adds. -/
inductive UnwrapLoop (s : Schema) : (type : Addr) → (nonNull : Bool) → Addr → List Mod → Prop where
  | nonNull {a t b nonNull c ms} : s.store a = some t → t.kind = .nonNull → t.ofType = some b →
      UnwrapLoop s b true c ms → UnwrapLoop s a nonNull c ms
  | list {a t b nonNull c ms} : s.store a = some t → t.kind = .list → t.ofType = some b → UnwrapLoop s b false c ms →
      UnwrapLoop s a nonNull c ((if nonNull then [] else [.nullable]) ++ .list :: ms)
  | other {a t nonNull} : s.store a = some t → t.kind ≠ .nonNull → t.kind ≠ .list →
      UnwrapLoop s a nonNull a (if nonNull then [] else [.nullable])

/-- `RequestLoader::unwrapSchemaType` -/
def UnwrapSchemaType (s : Schema) (a base : Addr) (modifiers : List Mod) : Prop := UnwrapLoop s a false base modifiers

/-! ## Generated text -/

/-- A loop over the modifiers which writes text: what it has written, how many brackets it has to close, and `nonNull`. -/
structure Writer where
  text : Str := []
  count : Nat := 0
  nonNull : Bool := true

def Writer.open (w : Writer) (t : Str) : Writer := { w with text := w.text ++ t, count := w.count + 1 }

/-- `for (size_t i = 0; i < count; ++i) ... << bracket` -/
def closing (bracket : Str) : Nat → Str
  | 0 => []
  | n + 1 => bracket ++ closing bracket n

/-- One step of the loop of `Generator::getIntrospectionType`, SchemaGenerator.cpp:1993-2040. -/
def introspectionStep (w : Writer) (m : Mod) : Writer :=
  match m with
  | .nullable => { w with nonNull := false }
  | .list =>
    let w := if w.nonNull then w.open (str "schema->WrapType(introspection::TypeKind::NON_NULL, ") else w
    { w with nonNull := true }.open (str "schema->WrapType(introspection::TypeKind::LIST, ")

/-- `Generator::getIntrospectionType`, SchemaGenerator.cpp:1986-2057 -/
def getIntrospectionType (type : Str) (modifiers : List Mod) : Str :=
  let w := modifiers.foldl introspectionStep {}
  let w := if w.nonNull then w.open (str "schema->WrapType(introspection::TypeKind::NON_NULL, ") else w
  w.text ++ str "schema->LookupType(\"" ++ type ++ str "\")" ++ closing (str ")") w.count

/-- One step of the loop of `getInputCppType`, SchemaLoader.cpp:1360-1376 and RequestLoader.cpp:145-162. -/
def inputStep (w : Writer) : Mod → Writer
  | .nullable => w.open (str "std::optional<")
  | .list => w.open (str "std::vector<")

/-- `SchemaLoader::getInputCppType`, SchemaLoader.cpp:1355-1387, and `RequestLoader::getInputCppType`,
RequestLoader.cpp:139-172, after `unwrapSchemaType`; `cppType` is what `getCppType` gives for the type. -/
def getInputCppType (cppType : Str) (modifiers : List Mod) : Str :=
  let w := modifiers.foldl inputStep {}
  w.text ++ cppType ++ closing (str ">") w.count

/-- One step of the loop of `getOutputCppType`, SchemaLoader.cpp:1395-1420 and RequestLoader.cpp:181-206. -/
def outputStep (w : Writer) (m : Mod) : Writer :=
  let w := if w.nonNull then w else w.open (str "std::optional<")
  match m with
  | .nullable => { w with nonNull := false }
  | .list => { w with nonNull := true }.open (str "std::vector<")

/-- `RequestLoader::getOutputCppType`, RequestLoader.cpp:174-221 -/
def getOutputCppType (cppType : Str) (modifiers : List Mod) : Str :=
  let w := modifiers.foldl outputStep {}
  let w := if w.nonNull then w else w.open (str "std::optional<")
  w.text ++ cppType ++ closing (str ">") w.count

/-- `SchemaLoader::getOutputCppType`, SchemaLoader.cpp:1389-1469. `composite`: the type is an object, an interface or a
union; `cppType` is what is written for the type, lines 1440-1461. -/
def getResolverCppType (composite : Bool) (cppType : Str) (modifiers : List Mod) : Str :=
  let w := modifiers.foldl outputStep {}
  let w :=
    if composite then w.open (str "std::shared_ptr<")
    else if w.nonNull then w else w.open (str "std::optional<")
  w.text ++ cppType ++ closing (str ">") w.count

/-- `Generator::getTypeModifiers`, SchemaGenerator.cpp:1946-1984, with `scope` `service::`; and
`Generator::getTypeModifierList`, ClientGenerator.cpp:813-853, with an empty one: the text and `firstValue` after the
loop. -/
def modifiersStep (scope : Str) (st : Str × Bool) (m : Mod) : Str × Bool :=
  (st.1 ++ (if st.2 then str "<" else str ", ") ++
    (match m with
      | .nullable => scope ++ str "TypeModifier::Nullable"
      | .list => scope ++ str "TypeModifier::List"), false)

def getTypeModifiers (scope : Str) (modifiers : List Mod) : Str :=
  let st := modifiers.foldl (modifiersStep scope) ([], true)
  if st.2 then st.1 else st.1 ++ str ">"

end Verif.Gen
