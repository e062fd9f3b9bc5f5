import Verif.Schema.Types
import Verif.Gen.Input
import Verif.Request.Model

/-!
# Model of the objects of introspection

Models the classes of `/repo/src/IntrospectionSchema.cpp` (`object::Schema`, `object::Type` and so on: which resolvers they have, and what
these do), with the accessors of `/repo/src/Introspection.cpp` (`Verif.TypeSystem.Introspection`), and the resolvers `__schema` and `__type`
which `schemagen` writes for the type of queries (`/repo/src/SchemaGenerator.cpp:1416-1422`, 1569-1597).

* The objects are made for each call of an accessor; they have no state but the pointer they are made with.
* `_resolverMutex` is only held while an accessor runs, and the accessors here run no other code.
* A `std::shared_ptr<object::Type>` which is null is `none`.
-/
namespace Verif.Intro
open Verif.Value Verif.Resp Verif.Errors Verif.Exec Verif.Modifiers
open Verif.TypeSystem (Addr BaseType Kind DirectiveLocation)

/-- The objects of a service with introspection: the user's, and `introspection::Schema`, `Type`, `Field`, `InputValue`, `EnumValue` and
`Directive`, with their members, Introspection.h:22-154. -/
inductive Obj (O : Type) where
  | user (o : O)
  | schema
  | type (type : Addr)
  | field (field : TypeSystem.Field)
  | inputValue (inputValue : TypeSystem.InputValue)
  | enumValue (enumValue : TypeSystem.EnumValue)
  | directive (directive : TypeSystem.Directive)

section
variable {E O : Type}

/-! ## Results -/

/-- `s_namesTypeKind`, IntrospectionSchema.cpp:22-31, of the values of `TypeKind`, IntrospectionSchema.h:36-46. -/
def kindName : Kind → Str
  | .scalar => str "SCALAR"
  | .object => str "OBJECT"
  | .interface => str "INTERFACE"
  | .union => str "UNION"
  | .enum => str "ENUM"
  | .inputObject => str "INPUT_OBJECT"
  | .list => str "LIST"
  | .nonNull => str "NON_NULL"

/-- `s_namesDirectiveLocation`, IntrospectionSchema.cpp:65-84, of the values of `DirectiveLocation`, IntrospectionSchema.h:48-68. -/
def locationName : DirectiveLocation → Str
  | .query => str "QUERY"
  | .mutation => str "MUTATION"
  | .subscription => str "SUBSCRIPTION"
  | .field => str "FIELD"
  | .fragmentDefinition => str "FRAGMENT_DEFINITION"
  | .fragmentSpread => str "FRAGMENT_SPREAD"
  | .inlineFragment => str "INLINE_FRAGMENT"
  | .schema => str "SCHEMA"
  | .scalar => str "SCALAR"
  | .object => str "OBJECT"
  | .fieldDefinition => str "FIELD_DEFINITION"
  | .argumentDefinition => str "ARGUMENT_DEFINITION"
  | .interface => str "INTERFACE"
  | .union => str "UNION"
  | .enum => str "ENUM"
  | .enumValue => str "ENUM_VALUE"
  | .inputObject => str "INPUT_OBJECT"
  | .inputFieldDefinition => str "INPUT_FIELD_DEFINITION"

/-- `response::StringType`, converted as GraphQLService.cpp:640-651. -/
def text (s : Str) : Out (Obj O) := .leaf (.string s false)
/-- `response::BooleanType`, GraphQLService.cpp:653-664. -/
def flag (b : Bool) : Out (Obj O) := .leaf (.boolean b)
/-- `std::optional` of a string. -/
def maybeText : Option Str → Out (Obj O)
  | none => .absent
  | some s => .present (text s)
/-- A pointer to an object which may be null, as a field which is nullable. -/
def maybeObject : Option (Obj O) → Out (Obj O)
  | none => .absent
  | some o => .present (.object (some o))
/-- `std::vector` of pointers to objects. -/
def objects (os : List (Obj O)) : Out (Obj O) := .list (os.map fun o => .object (some o))
/-- `std::optional` of a vector of pointers to objects. -/
def maybeObjects : Option (List (Obj O)) → Out (Obj O)
  | none => .absent
  | some os => .present (objects os)

/-- A resolver without arguments: the accessor is called, and returns at once. IntrospectionSchema.cpp:137-145 -/
def plain (type : OutType) (x : Out (Obj O)) : Resolver E (Obj O) := ⟨type, fun _ => .pure (.value x)⟩

/-- The argument `includeDeprecated: Boolean = false`, IntrospectionSchema.cpp:242-256, 287-301. -/
def includeDeprecatedField : Gen.InputField where
  type := str "Boolean"
  name := str "includeDeprecated"
  defaultValueString := str "false"
  defaultValue := .boolean false
  fieldType := .builtin
  modifiers := [.nullable]

/-- The value of `argIncludeDeprecated`, IntrospectionSchema.cpp:242-256, 287-301. -/
def includeDeprecated (arguments : Members) : Except Exn (Option Bool) :=
  match Gen.Service.getArgument (fun v => .of (Gen.Service.convertBuiltin (str "Boolean") v))
      (Gen.Service.defaults [includeDeprecatedField]) includeDeprecatedField (.map arguments) with
  | .ok (.some (.leaf (.boolean b))) => .ok (some b)
  | .ok _ => .ok none
  | .error e => .error e
  | .depth => .error (.other (str "not possible"))

/-- A resolver with this argument, IntrospectionSchema.cpp:240-263, 285-308. -/
def withDeprecated (type : OutType) (x : Option Bool → Out (Obj O)) : Resolver E (Obj O) :=
  ⟨type, fun params => (Run.lift (includeDeprecated params.arguments)).bind fun b => .pure (.value (x b))⟩

/-! ## The classes -/

open TypeSystem.Introspection

/-- `Type` of a pointer. -/
def typePointer (p : Option Addr) : Option (Obj O) := p.map .type

/-- `object::Schema`, IntrospectionSchema.cpp:123-190. -/
def schemaResolvers (s : TypeSystem.Schema) : List (Str × Resolver E (Obj O)) :=
  [(str "types", plain (.list (.object false)) (objects ((getTypes s).map .type))),
   (str "queryType", plain (.object false) (.object (typePointer (getQueryType s)))),
   (str "__typename", plain .leaf (text (str "__Schema"))),
   (str "directives", plain (.list (.object false)) (objects ((getDirectives s).map .directive))),
   (str "mutationType", plain (.nullable (.object false)) (maybeObject (typePointer (getMutationType s)))),
   (str "subscriptionType", plain (.nullable (.object false)) (maybeObject (typePointer (getSubscriptionType s))))]

/-- `object::Type`, IntrospectionSchema.cpp:192-333. -/
def typeResolvers (s : TypeSystem.Schema) (t : BaseType) : List (Str × Resolver E (Obj O)) :=
  [(str "kind", plain .enum (.leaf (.enumValue (kindName (getKind t))))),
   (str "name", plain (.nullable .leaf) (maybeText (getName t))),
   (str "fields", withDeprecated (.nullable (.list (.object false))) fun b => maybeObjects ((getFields t b).map (·.map .field))),
   (str "ofType", plain (.nullable (.object false)) (maybeObject (typePointer (getOfType s t)))),
   (str "__typename", plain .leaf (text (str "__Type"))),
   (str "enumValues", withDeprecated (.nullable (.list (.object false))) fun b =>
      maybeObjects ((getEnumValues t b).map (·.map .enumValue))),
   (str "interfaces", plain (.nullable (.list (.object false))) (maybeObjects ((getInterfaces t).map (·.map .type)))),
   (str "description", plain (.nullable .leaf) (maybeText (getDescription t))),
   (str "inputFields", plain (.nullable (.list (.object false))) (maybeObjects ((getInputFields t).map (·.map .inputValue)))),
   (str "possibleTypes", plain (.nullable (.list (.object false))) (maybeObjects ((getPossibleTypes t).map (·.map .type))))]

/-- `object::Field`, IntrospectionSchema.cpp:335-413. -/
def fieldResolvers (s : TypeSystem.Schema) (f : TypeSystem.Field) : List (Str × Resolver E (Obj O)) :=
  [(str "args", plain (.list (.object false)) (objects ((fieldArgs f).map .inputValue))),
   (str "name", plain .leaf (text (fieldName f))),
   (str "type", plain (.object false) (.object (typePointer (fieldType s f)))),
   (str "__typename", plain .leaf (text (str "__Field"))),
   (str "description", plain (.nullable .leaf) (maybeText (fieldDescription f))),
   (str "isDeprecated", plain .leaf (flag (fieldIsDeprecated f))),
   (str "deprecationReason", plain (.nullable .leaf) (maybeText (fieldDeprecationReason f)))]

/-- `object::InputValue`, IntrospectionSchema.cpp:415-471. -/
def inputValueResolvers (s : TypeSystem.Schema) (v : TypeSystem.InputValue) : List (Str × Resolver E (Obj O)) :=
  [(str "name", plain .leaf (text (inputName v))),
   (str "type", plain (.object false) (.object (typePointer (inputType s v)))),
   (str "__typename", plain .leaf (text (str "__InputValue"))),
   (str "description", plain (.nullable .leaf) (maybeText (inputDescription v))),
   (str "defaultValue", plain (.nullable .leaf) (maybeText (inputDefaultValue v)))]

/-- `object::EnumValue`, IntrospectionSchema.cpp:473-529. -/
def enumValueResolvers (v : TypeSystem.EnumValue) : List (Str × Resolver E (Obj O)) :=
  [(str "name", plain .leaf (text (enumName v))),
   (str "__typename", plain .leaf (text (str "__EnumValue"))),
   (str "description", plain (.nullable .leaf) (maybeText (enumDescription v))),
   (str "isDeprecated", plain .leaf (flag (enumIsDeprecated v))),
   (str "deprecationReason", plain (.nullable .leaf) (maybeText (enumDeprecationReason v)))]

/-- `object::Directive`, IntrospectionSchema.cpp:531-587, and the accessors of `introspection::Directive`, Introspection.cpp:364-395. -/
def directiveResolvers (d : TypeSystem.Directive) : List (Str × Resolver E (Obj O)) :=
  [(str "args", plain (.list (.object false)) (objects (d.args.map .inputValue))),
   (str "name", plain .leaf (text d.name)),
   (str "locations", plain (.list .enum) (.list (d.locations.map fun l => .leaf (.enumValue (locationName l))))),
   (str "__typename", plain .leaf (text (str "__Directive"))),
   (str "description", plain (.nullable .leaf) (maybeText (TypeSystem.optional d.description)))]

/-! ## The type of queries -/

/-- `resolve_schema`, SchemaGenerator.cpp:1571-1579: a pointer to `service::Object`. -/
def resolveSchema : Resolver E (Obj O) := plain (.object true) (.object (some .schema))

/-- `resolve_type`, SchemaGenerator.cpp:1581-1596. `LookupType` never returns a null pointer. -/
def resolveType (s : TypeSystem.Schema) : Resolver E (Obj O) where
  type := .nullable (.object false)
  access params :=
    (Run.lift (requireLeaf convertString (str "name") params.arguments)).bind fun name =>
    (Run.lift (s.lookupType name)).bind fun a => .pure (.value (maybeObject (some (.type a))))

/-! ## The service -/

mutual
/-- A result of the user's accessors. -/
def userOut : Out O → Out (Obj O)
  | .leaf v => .leaf v
  | .object o => .object (o.map .user)
  | .absent => .absent
  | .present x => .present (userOut x)
  | .list xs => .list (userOuts xs)
def userOuts : List (Out O) → List (Out (Obj O))
  | [] => []
  | x :: xs => userOut x :: userOuts xs
end

def userResult : FieldResult E O → FieldResult E (Obj O)
  | .value x => .value (userOut x)
  | .future later (.ok x) => .future later (.ok (userOut x))
  | .future later (.error e) => .future later (.error e)

/-- A resolver of the user. -/
def userResolver (r : Resolver E O) : Resolver E (Obj O) :=
  ⟨r.type, fun params => (r.access params).bind fun x => .pure (userResult x)⟩

/-- The resolvers of an object. `isQuery` are the objects of the generated class for the type of queries, whose resolvers
`__schema` and `__type` replace all others of these names, SchemaGenerator.cpp:1416-1422. -/
def resolvers (s : TypeSystem.Schema) (isQuery : O → Bool) (I : Impl E O) : Obj O → Str → Option (Resolver E (Obj O))
  | .user o, name =>
    if isQuery o && name == str "__schema" then some resolveSchema
    else if isQuery o && name == str "__type" then some (resolveType s)
    else (I.resolver o name).map userResolver
  | .schema, name => List.lookup name (schemaResolvers s)
  | .type a, name =>
    match s.store a with
    | some t => List.lookup name (typeResolvers s t)
    | none => none  -- not possible: the object is alive
  | .field f, name => List.lookup name (fieldResolvers s f)
  | .inputValue v, name => List.lookup name (inputValueResolvers s v)
  | .enumValue v, name => List.lookup name (enumValueResolvers v)
  | .directive d, name => List.lookup name (directiveResolvers d)

/-- The type names, IntrospectionSchema.cpp:125, 194, 337, 417, 475, 533. -/
def typeNames (I : Impl E O) : Obj O → List Str
  | .user o => I.typeNames o
  | .schema => [str "__Schema"]
  | .type _ => [str "__Type"]
  | .field _ => [str "__Field"]
  | .inputValue _ => [str "__InputValue"]
  | .enumValue _ => [str "__EnumValue"]
  | .directive _ => [str "__Directive"]

/-- The service of the user, with introspection. The classes of introspection leave `beginSelectionSet` and `endSelectionSet` as they
are, GraphQLService.cpp:1206-1212. -/
def withIntrospection (s : TypeSystem.Schema) (isQuery : O → Bool) (I : Impl E O) : Impl E (Obj O) where
  typeNames := typeNames I
  resolver := resolvers s isQuery I
  beginSet
    | .user o => I.beginSet o
    | _ => fun _ => .pure ()
  endSet
    | .user o => I.endSet o
    | _ => fun _ => .pure ()

/-- A request to this service: the operations are objects of the user, SchemaGenerator.cpp:799-833; introspection and validation share
the schema object, `GetSchema()`, 833, 1341-1358, 1444. -/
def introspected (s : TypeSystem.Schema) (isQuery : O → Bool) (service : Request.Service E O) : Request.Service E (Obj O) where
  impl := withIntrospection s isQuery service.impl
  operations type := (service.operations type).map (·.map .user)
  validate := service.validate
  atoiOverflow := service.atoiOverflow

end

end Verif.Intro
