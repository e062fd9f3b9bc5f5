import Verif.Gen.LoaderSpec
import Verif.Gen.BuildSpec
import Verif.View.Spec
import Verif.Request.Model

/-!
# Specification: a service which reports its schema

The objects of introspection as the GraphQL specification (June 2018, 4. Introspection) describes them: what each of their fields
returns is read off the loaded types. There are no pointers and no tables here: a type is a type reference, a field is a loaded field,
and so on. Two things are as in this library and not as in the specification: `__type` of a name which is not known is an error, and an
argument `includeDeprecated` which is not a boolean counts as absent.
-/
namespace Verif.Intro.Spec
open Verif.Value Verif.Resp Verif.Errors Verif.Exec Verif.Gen
open Verif.TypeSystem.Spec (nullIfEmpty)
open Verif.Ast (TypeRef)

/-! ## Types -/

/-- A definition of a type. -/
inductive Definition where
  | scalar (t : ScalarType)
  | enum (t : EnumType)
  | input (t : InputType)
  | union (t : UnionType)
  | interface (t : InterfaceType)
  | object (t : ObjectType)

def definitions (l : Loader) : List (Str × Definition) :=
  l.scalarTypes.map (fun t => (t.type, .scalar t)) ++ l.enumTypes.map (fun t => (t.type, .enum t)) ++
  l.inputTypes.map (fun t => (t.type, .input t)) ++ l.unionTypes.map (fun t => (t.type, .union t)) ++
  l.interfaceTypes.map (fun t => (t.type, .interface t)) ++ l.objectTypes.map (fun t => (t.type, .object t))

/-- All the types of the schema: those which every schema has, and those of the document. -/
def allDefinitions (l : Loader) : List (Str × Definition) := definitions Introspect.types ++ definitions l

/-- What `__Type` tells about a type. -/
structure About where
  kind : Str
  name : Option Str := none
  description : Option Str := none
  fields : Option (List OutputField) := none
  interfaces : Option (List TypeRef) := none
  possibleTypes : Option (List TypeRef) := none
  enumValues : Option (List EnumValueType) := none
  inputFields : Option (List InputField) := none
  ofType : Option TypeRef := none

def Definition.about (l : Loader) : Definition → About
  | .scalar t => { kind := str "SCALAR", name := some t.type, description := nullIfEmpty t.description }
  | .enum t => { kind := str "ENUM", name := some t.type, description := nullIfEmpty t.description, enumValues := some t.values }
  | .input t =>
    { kind := str "INPUT_OBJECT", name := some t.type, description := nullIfEmpty t.description, inputFields := some t.fields }
  | .union t =>
    { kind := str "UNION", name := some t.type, description := nullIfEmpty t.description
      possibleTypes := some (t.options.map .named) }
  | .interface t =>
    { kind := str "INTERFACE", name := some t.type, description := nullIfEmpty t.description, fields := some t.fields
      possibleTypes := some ((implementing l t.type).map .named) }
  | .object t =>
    { kind := str "OBJECT", name := some t.type, description := nullIfEmpty t.description, fields := some t.fields
      interfaces := some (t.interfaces.map .named) }

def about (l : Loader) : TypeRef → About
  | .named n =>
    match List.lookup n (definitions Introspect.types) with
    | some d => d.about Introspect.types
    | none =>
      match List.lookup n (definitions l) with
      | some d => d.about l
      | none => { kind := str "SCALAR" }  -- there are no such types
  | .list of => { kind := str "LIST", ofType := some of }
  | .nonNull of => { kind := str "NON_NULL", ofType := some of }

/-! ## Objects -/

/-- The objects: the user's, and what introspection talks about. -/
inductive Entity (O : Type) where
  | user (o : O)
  | schema
  | type (type : TypeRef)
  | field (field : OutputField)
  | inputValue (inputValue : InputField)
  | enumValue (enumValue : EnumValueType)
  | directive (directive : DirectiveType)

section
variable {E O : Type}

/-- `String!` -/
def string (s : Str) : Out O := .leaf (.string s false)
/-- An enum value. -/
def symbol (s : Str) : Out O := .leaf (.enumValue s)
/-- A nullable value. -/
def maybe {α : Type} (f : α → Out O) : Option α → Out O
  | none => .absent
  | some a => .present (f a)
/-- A list. -/
def many {α : Type} (f : α → Out O) (as : List α) : Out O := .list (as.map f)
/-- An object. -/
def entity (e : Entity O) : Out (Entity O) := .object (some e)

/-- A field which always has this value. -/
def constant (type : OutType) (x : Out O) : Resolver E O := ⟨type, fun _ => .pure (.value x)⟩

/-- A list of which the members with a deprecation reason are only shown for `includeDeprecated: true`. -/
def visible {α : Type} (reason : α → Option Str) (arguments : Members) (as : List α) : List α :=
  match arguments.find (str "includeDeprecated") with
  | some (.boolean true) => as
  | _ => as.filter fun a => (reason a).isNone

/-- A field of such a list. -/
def filtered {α : Type} (reason : α → Option Str) (f : α → Entity O) (as : Option (List α)) : Resolver E (Entity O) :=
  ⟨.nullable (.list (.object false)),
    fun params => .pure (.value (maybe (many fun a => entity (f a)) (as.map (visible reason params.arguments))))⟩

/-! The fields of the objects of introspection. -/

def schemaFields (l : Loader) : List (Str × Resolver E (Entity O)) :=
  [(str "types", constant (.list (.object false)) (many (fun d => entity (.type (.named d.1))) (allDefinitions l))),
   (str "queryType", constant (.object false) (entity (.type (.named ((View.rootOf l (str "query")).getD []))))),
   (str "__typename", constant .leaf (string (str "__Schema"))),
   (str "directives", constant (.list (.object false))
      (many (fun d => entity (.directive d)) (Introspect.types.directives ++ l.directives))),
   (str "mutationType", constant (.nullable (.object false))
      (maybe (fun n => entity (.type (.named n))) (View.rootOf l (str "mutation")))),
   (str "subscriptionType", constant (.nullable (.object false))
      (maybe (fun n => entity (.type (.named n))) (View.rootOf l (str "subscription"))))]

def typeFields (a : About) : List (Str × Resolver E (Entity O)) :=
  [(str "kind", constant .enum (symbol a.kind)),
   (str "name", constant (.nullable .leaf) (maybe string a.name)),
   (str "fields", filtered (·.deprecationReason) .field a.fields),
   (str "ofType", constant (.nullable (.object false)) (maybe (fun t => entity (.type t)) a.ofType)),
   (str "__typename", constant .leaf (string (str "__Type"))),
   (str "enumValues", filtered (·.deprecationReason) .enumValue a.enumValues),
   (str "interfaces", constant (.nullable (.list (.object false))) (maybe (many fun t => entity (.type t)) a.interfaces)),
   (str "description", constant (.nullable .leaf) (maybe string a.description)),
   (str "inputFields", constant (.nullable (.list (.object false))) (maybe (many fun f => entity (.inputValue f)) a.inputFields)),
   (str "possibleTypes", constant (.nullable (.list (.object false))) (maybe (many fun t => entity (.type t)) a.possibleTypes))]

def fieldFields (f : OutputField) : List (Str × Resolver E (Entity O)) :=
  [(str "args", constant (.list (.object false)) (many (fun a => entity (.inputValue a)) f.arguments)),
   (str "name", constant .leaf (string f.name)),
   (str "type", constant (.object false) (entity (.type (typeOf f.type f.modifiers)))),
   (str "__typename", constant .leaf (string (str "__Field"))),
   (str "description", constant (.nullable .leaf) (maybe string (nullIfEmpty f.description))),
   (str "isDeprecated", constant .leaf (.leaf (.boolean f.deprecationReason.isSome))),
   (str "deprecationReason", constant (.nullable .leaf) (maybe string f.deprecationReason))]

def inputValueFields (f : InputField) : List (Str × Resolver E (Entity O)) :=
  [(str "name", constant .leaf (string f.name)),
   (str "type", constant (.object false) (entity (.type (typeOf f.type f.modifiers)))),
   (str "__typename", constant .leaf (string (str "__InputValue"))),
   (str "description", constant (.nullable .leaf) (maybe string (nullIfEmpty f.description))),
   (str "defaultValue", constant (.nullable .leaf) (maybe string (nullIfEmpty f.defaultValueString)))]

def enumValueFields (v : EnumValueType) : List (Str × Resolver E (Entity O)) :=
  [(str "name", constant .leaf (string v.value)),
   (str "__typename", constant .leaf (string (str "__EnumValue"))),
   (str "description", constant (.nullable .leaf) (maybe string (nullIfEmpty v.description))),
   (str "isDeprecated", constant .leaf (.leaf (.boolean v.deprecationReason.isSome))),
   (str "deprecationReason", constant (.nullable .leaf) (maybe string v.deprecationReason))]

def directiveFields (d : DirectiveType) : List (Str × Resolver E (Entity O)) :=
  [(str "args", constant (.list (.object false)) (many (fun a => entity (.inputValue a)) d.arguments)),
   (str "name", constant .leaf (string d.name)),
   (str "locations", constant (.list .enum) (many symbol d.locations)),
   (str "__typename", constant .leaf (string (str "__Directive"))),
   (str "description", constant (.nullable .leaf) (maybe string (nullIfEmpty d.description)))]

/-- The message for a name which is not the name of a type. -/
def notFound (n : Str) : Str := if n = [] then str "Type not found" else str "Type not found name: " ++ n

/-- `__type(name: String!): __Type` -/
def typeField (l : Loader) : Resolver E (Entity O) where
  type := .nullable (.object false)
  access params :=
    match params.arguments.find (str "name") with
    | some (.string n _) =>
      if n ∈ (allDefinitions l).map (·.1) then .pure (.value (.present (entity (.type (.named n)))))
      else .throw (.message (notFound n))
    | some _ => .throw (.message (str "Invalid argument: name error: not a string"))
    | none => .throw (.other (str "Missing Map member"))

/-- The fields which introspection adds to the type of queries. -/
def queryFields (l : Loader) : List (Str × Resolver E (Entity O)) :=
  [(str "__schema", constant (.object true) (entity .schema)), (str "__type", typeField l)]

/-! ## The service -/

mutual
/-- A value of the user's service. -/
def value : Out O → Out (Entity O)
  | .leaf v => .leaf v
  | .object o => .object (o.map .user)
  | .absent => .absent
  | .present x => .present (value x)
  | .list xs => .list (values xs)
def values : List (Out O) → List (Out (Entity O))
  | [] => []
  | x :: xs => value x :: values xs
end

/-- A field of the user's service. -/
def userField (r : Resolver E O) : Resolver E (Entity O) where
  type := r.type
  access params := (r.access params).bind fun
    | .value x => .pure (.value (value x))
    | .future later (.ok x) => .pure (.future later (.ok (value x)))
    | .future later (.error e) => .pure (.future later (.error e))

/-- The user's service `I` with the introspection of the loaded types. -/
def service (l : Loader) (isQuery : O → Bool) (I : Impl E O) : Impl E (Entity O) where
  typeNames
    | .user o => I.typeNames o
    | .schema => [str "__Schema"]
    | .type _ => [str "__Type"]
    | .field _ => [str "__Field"]
    | .inputValue _ => [str "__InputValue"]
    | .enumValue _ => [str "__EnumValue"]
    | .directive _ => [str "__Directive"]
  resolver
    | .user o => fun name =>
      match if isQuery o then List.lookup name (queryFields l) else none with
      | some r => some r
      | none => (I.resolver o name).map userField
    | .schema => fun name => List.lookup name (schemaFields l)
    | .type t => fun name => List.lookup name (typeFields (about l t))
    | .field f => fun name => List.lookup name (fieldFields f)
    | .inputValue f => fun name => List.lookup name (inputValueFields f)
    | .enumValue v => fun name => List.lookup name (enumValueFields v)
    | .directive d => fun name => List.lookup name (directiveFields d)
  beginSet
    | .user o => I.beginSet o
    | _ => fun _ => .pure ()
  endSet
    | .user o => I.endSet o
    | _ => fun _ => .pure ()

/-- Requests to this service. -/
def requests (l : Loader) (isQuery : O → Bool) (user : Request.Service E O) : Request.Service E (Entity O) where
  impl := service l isQuery user.impl
  operations type := (user.operations type).map (·.map .user)
  validate := user.validate
  atoiOverflow := user.atoiOverflow

end

end Verif.Intro.Spec
