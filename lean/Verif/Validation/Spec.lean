import Verif.Validation.Model
import Mathlib.Data.Set.Basic

/-!
# Specification of validation

What the validator accepts, as inference rules: no errors, no mutable state, and no order of visits beyond what matters.
-/
namespace Verif.Validation.Spec
open Verif.Value Verif.Errors Verif.Ast Verif.Validation

/-! ## Types -/

/-- The grammar (and the schema) never wrap a non-null type into another non-null wrapper. -/
def WellFormed : TypeRef → Prop
  | .named _ => True
  | .list t => WellFormed t
  | .nonNull (.nonNull _) => False
  | .nonNull t => WellFormed t

/-- `AreTypesCompatible(variableType, locationType)` of the GraphQL specification (June 2018, 5.8.5). -/
inductive Compatible : TypeRef → TypeRef → Prop where
  | bothNonNull {v l} (h : Compatible v l) : Compatible (.nonNull v) (.nonNull l)
  | variableNonNull {v l} (hl : ∀ t, l ≠ .nonNull t) (h : Compatible v l) : Compatible (.nonNull v) l
  | list {v l} (h : Compatible v l) : Compatible (.list v) (.list l)
  | named {name} : Compatible (.named name) (.named name)

/-- `IsVariableUsageAllowed` of the GraphQL specification (June 2018, 5.8.5): `hasDefault` if the variable has a default
which is not null, or the location has one. -/
inductive Allowed (hasDefault : Bool) : TypeRef → TypeRef → Prop where
  | compatible {v l} (h : Compatible v l) : Allowed hasDefault v l
  | default {v l} (hd : hasDefault = true) (hv : ∀ t, v ≠ .nonNull t) (h : Compatible v l) :
      Allowed hasDefault v (.nonNull l)

/-- The type with its non-null wrapper removed. -/
def nullable : TypeRef → TypeRef
  | .nonNull t => nullable t
  | t => t

/-- Non-null types. -/
def Required (t : TypeRef) : Prop := ∃ of, t = .nonNull of

/-! ## Literals -/

/-- No input object in the literal has two members of the same name. -/
inductive Unique : Lit → Prop where
  | variable {pos name} : Unique (.variable pos name)
  | int {n} : Unique (.int n)
  | float {d} : Unique (.float d)
  | string {s} : Unique (.string s)
  | boolean {b} : Unique (.boolean b)
  | null : Unique .null
  | enumValue {s} : Unique (.enumValue s)
  | list {xs} (h : ∀ x ∈ xs, Unique x) : Unique (.list xs)
  | object {fields} (hn : (fields.map (·.1)).Nodup) (h : ∀ e ∈ fields, Unique e.2) : Unique (.object fields)

/-- The literals of the scalar types; a custom scalar type takes every literal. -/
def ScalarLiteral (type : Str) (value : Lit) : Prop :=
  (type = str "Int" → ∃ n, value = .int n) ∧
  (type = str "Float" → (∃ d, value = .float d) ∨ ∃ n, value = .int n) ∧
  (type = str "String" → ∃ s, value = .string s) ∧
  (type = str "ID" → ∃ s bytes, value = .string s ∧ Verif.Base64.fromBase64 s = .ok bytes) ∧
  (type = str "Boolean" → ∃ b, value = .boolean b)

/-- Neither a variable nor null. -/
def Proper (value : Lit) : Prop := (∀ pos name, value ≠ .variable pos name) ∧ value ≠ .null

/-- `Fits S vars hasDefault value type`: the literal may be written where a value of the type is expected. `hasDefault`: the
place has a default which is not null. `vars` are the variables of the operation; `none` in the definition of a fragment,
where a variable may stand anywhere. -/
inductive Fits (S : Schema) (vars : Option VariableTypes) : Bool → Lit → TypeRef → Prop where
  | declared {hasDefault pos name t vs d} (hv : vars = some vs) (hd : findVariable vs name = some d)
      (h : Allowed (hasDefault || d.nonNullDefaultValue) d.type t) : Fits S vars hasDefault (.variable pos name) t
  | any {hasDefault pos name t} (hv : vars = none) : Fits S vars hasDefault (.variable pos name) t
  | null {hasDefault t} (h : Required t → hasDefault = true) : Fits S vars hasDefault .null t
  | scalar {hasDefault value t name def_} (hp : Proper value) (ht : nullable t = .named name)
      (hdef : S.find name = some def_) (hk : def_.kind = .scalar) (h : ScalarLiteral name value) :
      Fits S vars hasDefault value t
  | enum {hasDefault v t name def_} (ht : nullable t = .named name) (hdef : S.find name = some def_)
      (hk : def_.kind = .enum) (h : v ∈ def_.enumValues) : Fits S vars hasDefault (.enumValue v) t
  | list {hasDefault values t of} (ht : nullable t = .list of) (h : ∀ x ∈ values, Fits S vars false x of) :
      Fits S vars hasDefault (.list values) t
  | object {hasDefault values t name def_} (ht : nullable t = .named name) (hdef : S.find name = some def_)
      (hk : def_.kind = .inputObject)
      (hknown : ∀ e ∈ values, (findArgument def_.inputFields e.1).isSome)
      (hvalues : ∀ e ∈ values, ∀ field, findArgument def_.inputFields e.1 = some field →
        ¬ (e.2 = .null ∧ field.defaultValue = true) → Fits S vars field.nonNullDefaultValue e.2 field.type)
      (hrequired : ∀ name field, findArgument def_.inputFields name = some field → Required field.type →
        field.defaultValue = true ∨ name ∈ values.map (·.1)) :
      Fits S vars hasDefault (.object values) t

/-- `Mentions S value type v`: the variable stands in a place of the literal whose type is known (not inside of the
literal of a custom scalar type). -/
inductive Mentions (S : Schema) : Lit → TypeRef → Str → Prop where
  | variable {pos name t} : Mentions S (.variable pos name) t name
  | list {values t of x v} (ht : nullable t = .list of) (hx : x ∈ values) (h : Mentions S x of v) :
      Mentions S (.list values) t v
  | object {values t name def_ e field v} (ht : nullable t = .named name) (hdef : S.find name = some def_)
      (hk : def_.kind = .inputObject) (he : e ∈ values) (hf : findArgument def_.inputFields e.1 = some field)
      (h : Mentions S e.2 field.type v) : Mentions S (.object values) t v

/-! ## Arguments and directives -/

/-- The arguments given to a field or directive with the defined arguments `defs`. -/
structure ArgumentsOk (S : Schema) (vars : Option VariableTypes) (defs : List InputValue) (given : Args) : Prop where
  unique : (given.map (·.1)).Nodup
  uniqueMembers : ∀ e ∈ given, Unique e.2
  known : ∀ e ∈ given, (findArgument defs e.1).isSome
  values : ∀ e ∈ given, ∀ a, findArgument defs e.1 = some a → e.2 ≠ .null → Fits S vars a.nonNullDefaultValue e.2 a.type
  required : ∀ name a, findArgument defs name = some a → Required a.type → a.defaultValue = false →
    ∃ e ∈ given, e.1 = name ∧ e.2 ≠ .null

/-- The variables which the arguments use. -/
def argumentVariables (S : Schema) (vars : Option VariableTypes) (defs : List InputValue) (given : Args) : Set Str :=
  {v | vars.isSome ∧ ∃ e ∈ given, ∃ a, findArgument defs e.1 = some a ∧ Mentions S e.2 a.type v}

/-- The directives at a location: each one at most once, defined, allowed there, and with valid arguments. (If it is
written without any arguments, none is required.) -/
structure DirectivesOk (S : Schema) (vars : Option VariableTypes) (location : Location) (ds : Option (List Directive)) :
    Prop where
  unique : ((ds.getD []).map (·.name)).Nodup
  defined : ∀ d ∈ ds.getD [], ∃ def_, S.findDirective d.name = some def_ ∧ location ∈ def_.locations ∧
    ∀ args, d.arguments = some args → ArgumentsOk S vars def_.arguments args

/-- The variables which directives use. -/
def directiveVariables (S : Schema) (vars : Option VariableTypes) (ds : Option (List Directive)) : Set Str :=
  {v | ∃ d ∈ ds.getD [], ∃ def_ args, S.findDirective d.name = some def_ ∧ d.arguments = some args ∧
    v ∈ argumentVariables S vars def_.arguments args}

/-! ## Selections -/

/-- A field where it is selected: the type it is selected on, and the type of its value. -/
structure Occurrence where
  parent : Str
  field : Field
  type : TypeRef

/-- The same literal (up to the positions of variables, and the order of the members of objects; integers as `std::atoi`
reads them). -/
inductive SameLiteral (overflow : Int → Int) : Lit → Lit → Prop where
  | variable {p q name} : SameLiteral overflow (.variable p name) (.variable q name)
  | int {a b} (h : Exec.Env.atoi ⟨[], overflow⟩ a = Exec.Env.atoi ⟨[], overflow⟩ b) : SameLiteral overflow (.int a) (.int b)
  | float {a b} (h : Double.eq a b = true) : SameLiteral overflow (.float a) (.float b)
  | string {s} : SameLiteral overflow (.string s) (.string s)
  | boolean {b} : SameLiteral overflow (.boolean b) (.boolean b)
  | null : SameLiteral overflow .null .null
  | enumValue {s} : SameLiteral overflow (.enumValue s) (.enumValue s)
  | list {as bs} (hl : as.length = bs.length)
      (h : ∀ (i : Nat) a b, as[i]? = some a → bs[i]? = some b → SameLiteral overflow a b) :
      SameLiteral overflow (.list as) (.list bs)
  | object {as bs} (hl : as.length = bs.length)
      (hsome : ∀ e ∈ as, (findValue bs e.1).isSome)
      (h : ∀ e ∈ as, ∀ b, findValue bs e.1 = some b → SameLiteral overflow e.2 b) :
      SameLiteral overflow (.object as) (.object bs)

/-- The same arguments, in any order. -/
def SameArguments (overflow : Int → Int) (as bs : Args) : Prop :=
  as.length = bs.length ∧ ∀ e ∈ as, ∃ b, findValue bs e.1 = some b ∧ SameLiteral overflow e.2 b

/-- The two fields can share a response name: their values have the same type, and they are the same field with the same
arguments unless they are selected on two different object types. -/
def Agree (S : Schema) (overflow : Int → Int) (a b : Occurrence) : Prop :=
  a.type = b.type ∧
    ((S.kind a.parent = some .object ∧ S.kind b.parent = some .object ∧ a.parent ≠ b.parent) ∨
      (a.field.name = b.field.name ∧ SameArguments overflow (a.field.arguments.getD []) (b.field.arguments.getD [])))

/-- `HasField S type name def_`: a field of this name can be selected on the type. -/
structure HasField (S : Schema) (type name : Str) (def_ : FieldDef) : Prop where
  composite : S.isComposite type = true
  union : S.kind type = some .union → name = str "__typename"
  found : S.findField type name = some def_
  known : (S.find (baseName def_.type)).isSome

/-- The fragments and variables which selections use. -/
structure Uses where
  fragments : Set Str := ∅
  vars : Set Str := ∅

/-- Both. -/
def Uses.and (a b : Uses) : Uses := ⟨a.fragments ∪ b.fragments, a.vars ∪ b.vars⟩

/-- The field itself is fine wherever it is selected: it exists, its directives are, and no argument is written twice. -/
structure FieldOk (S : Schema) (vars : Option VariableTypes) (type : Str) (f : Field) (def_ : FieldDef) : Prop where
  directives : DirectivesOk S vars .field f.directives
  exists_ : HasField S type f.name def_
  unique : ((f.arguments.getD []).map (·.1)).Nodup
  uniqueMembers : ∀ e ∈ f.arguments.getD [], Unique e.2

/-- `Checked ... stack type selections before after uses`: the selections are fine on a value of the type, inside of the
fragments `stack`. `before` are the fields already selected on the same value by their response names, each name with the
first field which has it; `after` includes those of the selections. -/
inductive Checked (S : Schema) (overflow : Int → Int) (fragments : List FragmentDef) (vars : Option VariableTypes) :
    (stack : List Str) → (type : Str) → List Selection → (before after : List (Str × Occurrence)) → Uses → Prop where
  | nil {stack type fields} : Checked S overflow fragments vars stack type [] fields fields {}
  /-- A field with a new response name and without selections. -/
  | leaf {stack type f def_ rest before after uses}
      (hf : FieldOk S vars type f def_) (hnew : ∀ o, (Exec.responseName f, o) ∉ before)
      (hargs : ArgumentsOk S vars def_.arguments (f.arguments.getD []))
      (hleaf : S.isComposite (baseName def_.type) = false)
      (hrest : Checked S overflow fragments vars stack type rest
        (before ++ [(Exec.responseName f, ⟨type, f, def_.type⟩)]) after uses) :
      Checked S overflow fragments vars stack type (.leaf f :: rest) before after
        (Uses.and ⟨∅, directiveVariables S vars f.directives ∪
          argumentVariables S vars def_.arguments (f.arguments.getD [])⟩ uses)
  /-- A field with a new response name and with selections. -/
  | node {stack type f pos sub def_ rest before inside after uses uses'}
      (hf : FieldOk S vars type f def_) (hnew : ∀ o, (Exec.responseName f, o) ∉ before)
      (hargs : ArgumentsOk S vars def_.arguments (f.arguments.getD []))
      (hsub : Checked S overflow fragments vars stack (baseName def_.type) sub [] inside uses')
      (hsome : S.isComposite (baseName def_.type) = true → inside ≠ [])
      (hrest : Checked S overflow fragments vars stack type rest
        (before ++ [(Exec.responseName f, ⟨type, f, def_.type⟩)]) after uses) :
      Checked S overflow fragments vars stack type (.node f pos sub :: rest) before after
        (Uses.and (Uses.and ⟨∅, directiveVariables S vars f.directives ∪
          argumentVariables S vars def_.arguments (f.arguments.getD [])⟩ uses') uses)
  /-- A field whose response name an earlier one has: it must agree with the first one, and that is all. -/
  | leafAgain {stack type f def_ first rest before after uses}
      (hf : FieldOk S vars type f def_) (hmem : (Exec.responseName f, first) ∈ before)
      (hagree : Agree S overflow first ⟨type, f, def_.type⟩)
      (hrest : Checked S overflow fragments vars stack type rest before after uses) :
      Checked S overflow fragments vars stack type (.leaf f :: rest) before after
        (Uses.and ⟨∅, directiveVariables S vars f.directives⟩ uses)
  /-- The same for a field with selections: these are not looked at. -/
  | nodeAgain {stack type f pos sub def_ first rest before after uses}
      (hf : FieldOk S vars type f def_) (hmem : (Exec.responseName f, first) ∈ before)
      (hagree : Agree S overflow first ⟨type, f, def_.type⟩)
      (hrest : Checked S overflow fragments vars stack type rest before after uses) :
      Checked S overflow fragments vars stack type (.node f pos sub :: rest) before after
        (Uses.and ⟨∅, directiveVariables S vars f.directives⟩ uses)
  /-- A fragment spread: the fragment exists, we are not inside of it, and its type overlaps. -/
  | spread {stack type pos name ds fragment rest before middle after uses uses'}
      (hds : DirectivesOk S vars .fragmentSpread ds)
      (hfind : fragments.find? (fun f => f.name == name) = some fragment) (hstack : name ∉ stack)
      (hknown : (S.find fragment.typeCondition).isSome) (hoverlap : S.overlap type fragment.typeCondition = true)
      (hsub : Checked S overflow fragments vars (name :: stack) fragment.typeCondition fragment.sub before middle uses')
      (hrest : Checked S overflow fragments vars stack type rest middle after uses) :
      Checked S overflow fragments vars stack type (.spread pos name ds :: rest) before after
        (Uses.and (Uses.and ⟨{name}, directiveVariables S vars ds⟩ uses') uses)
  /-- An inline fragment. -/
  | inline {stack type pos t ds sub rest before middle after uses uses'}
      (hds : DirectivesOk S vars .inlineFragment ds)
      (htype : ∀ name, t = some name → name ≠ [] → S.isComposite name = true ∧ S.overlap type name = true)
      (hsub : Checked S overflow fragments vars stack (if t.getD [] = [] then type else t.getD []) sub before middle uses')
      (hrest : Checked S overflow fragments vars stack type rest middle after uses) :
      Checked S overflow fragments vars stack type (.inline pos t ds sub :: rest) before after
        (Uses.and (Uses.and ⟨∅, directiveVariables S vars ds⟩ uses') uses)

/-! ## Documents -/

/-- The variables of an operation. -/
def declared (ds : List VarDef) : VariableTypes :=
  ds.map fun d => (d.name, {
    type := d.type
    defaultValue := d.default.isSome
    nonNullDefaultValue := d.default.any fun l => !l.isNull })

/-- The variables of an operation: distinct, of input types, and with defaults of their types (in which the variables
before may occur). -/
structure VariablesOk (S : Schema) (ds : List VarDef) : Prop where
  unique : (ds.map (·.name)).Nodup
  types : ∀ d ∈ ds, ∃ k, S.kind (baseName d.type) = some k ∧ k.isInput = true
  defaults : ∀ before d after, ds = before ++ d :: after → ∀ l, d.default = some l →
    Unique l ∧ Fits S (some (declared before)) false l d.type

/-- The variables which the defaults use. -/
def defaultVariables (S : Schema) (ds : List VarDef) : Set Str :=
  {v | ∃ d ∈ ds, ∃ l, d.default = some l ∧ Mentions S l d.type v}

/-- An operation is fine, and uses these fragments. -/
def OperationOk (S : Schema) (overflow : Int → Int) (fragments : List FragmentDef) (op : Operation) (used : Set Str) :
    Prop :=
  let type := op.type.getD (str "query")
  let vars := some (declared op.variables)
  VariablesOk S op.variables ∧
  DirectivesOk S vars (operationLocation type) op.directives ∧
  ∃ root fields uses, S.operationType type = some root ∧
    Checked S overflow fragments vars [] root op.sub [] fields uses ∧
    (type = str "subscription" → fields.length ≤ 1) ∧
    (∀ d ∈ op.variables, d.name ∈ uses.vars ∪ directiveVariables S vars op.directives ∪
      defaultVariables S op.variables) ∧
    used = uses.fragments

/-- The definition of a fragment is fine, and uses these fragments. -/
def FragmentOk (S : Schema) (overflow : Int → Int) (fragments : List FragmentDef) (f : FragmentDef) (used : Set Str) :
    Prop :=
  DirectivesOk S none .fragmentDefinition f.directives ∧
  S.isComposite f.typeCondition = true ∧
  ∃ fields uses, Checked S overflow fragments none [f.name] f.typeCondition f.sub [] fields uses ∧ used = uses.fragments

/-- A valid document. -/
structure Valid (S : Schema) (overflow : Int → Int) (doc : Document) : Prop where
  executable : ∀ pos, .other pos ∉ doc.definitions
  uniqueFragments : (doc.fragments.map (·.name)).Nodup
  uniqueOperations : (doc.operations.map operationName).Nodup
  loneAnonymous : ∀ op ∈ doc.operations, operationName op = [] → doc.operations = [op]
  fragments : ∀ f ∈ doc.fragments, ∃ used, FragmentOk S overflow doc.fragments f used
  operations : ∀ op ∈ doc.operations, ∃ used, OperationOk S overflow doc.fragments op used
  used : ∀ f ∈ doc.fragments,
    (∃ g ∈ doc.fragments, ∃ used, FragmentOk S overflow doc.fragments g used ∧ f.name ∈ used) ∨
    (∃ op ∈ doc.operations, ∃ used, OperationOk S overflow doc.fragments op used ∧ f.name ∈ used)

/-! ## Assumptions -/

/-- What the grammar ensures of the types of variables (there is no `T!!`). -/
def WellFormedDocument (doc : Document) : Prop := ∀ op ∈ doc.operations, ∀ d ∈ op.variables, WellFormed d.type

/-- A type which an argument or input field can have: its named type is there. -/
def Schema.Known (S : Schema) (v : InputValue) : Prop := (S.find (baseName v.type)).isSome ∧ WellFormed v.type

/-- What a schema built by generated code has: all the types it mentions, under names which are not empty. -/
structure Schema.Closed (S : Schema) : Prop where
  names : S.find [] = none
  inputFields : ∀ name t, S.find name = some t → ∀ v ∈ t.inputFields, Schema.Known S v
  arguments : ∀ name t, S.find name = some t → ∀ f ∈ t.fields, ∀ v ∈ f.arguments, Schema.Known S v
  directives : ∀ d ∈ S.directives, ∀ v ∈ d.arguments, Schema.Known S v
  string : (S.find (str "String")).isSome

end Verif.Validation.Spec
