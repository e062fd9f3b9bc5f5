import Verif.GenText.Read

/-!
# Reading the whole text
-/
namespace Verif.GenText
open Verif.Value Verif.Gen Verif.Modifiers Verif.Text Verif.Cpp
open Verif.Schema.Wrap (Kind)

/-- The body behind the built-in types. -/
def restText (o : Options) (l : Loader) : Str :=
  l.scalarTypes.flatMap (scalarText o) ++
  l.enumTypes.flatMap (fun t => declareText o .enum (t.type, t.description)) ++
  l.inputTypes.flatMap (fun t => declareText o .inputObject (t.type, t.description)) ++
  l.unionTypes.flatMap (fun t => declareText o .union (t.type, t.description)) ++
  l.interfaceTypes.flatMap (fun t => declareText o .interface (t.type, t.description)) ++
  l.objectTypes.flatMap (fun t => declareText o .object (t.type, t.description)) ++
  section' l.enumTypes.isEmpty (l.enumTypes.flatMap (enumDetailsText o)) ++
  section' l.inputTypes.isEmpty (l.inputTypes.flatMap (inputDetailsText o)) ++
  section' l.unionTypes.isEmpty (l.unionTypes.flatMap unionDetailsText) ++
  section' l.interfaceTypes.isEmpty (l.interfaceTypes.flatMap fun t => fieldsText o t.type t.fields) ++
  section' l.objectTypes.isEmpty (l.objectTypes.flatMap (objectDetailsText o)) ++
  section' l.directives.isEmpty (l.directives.flatMap (directiveText o)) ++
  section' o.isIntrospection (l.operationTypes.flatMap operationText)

theorem body_rest (o : Options) (l : Loader) :
    bodyText o l = (if o.isIntrospection then builtinNames.flatMap (builtinText o) else []) ++ restText o l := by
  simp [bodyText, restText]

theorem described_plain (o : Options) (d : Str) : described { o with noIntrospection := false } d = d := rfl
theorem described_empty {o : Options} (h : o.noIntrospection = true) (d : Str) : described o d = [] := by simp [described, h]

theorem scalar_shown {o : Options} (h : o.noIntrospection = true) (t : ScalarType) :
    scalarText o t = scalarText { o with noIntrospection := false } { t with description := [] } := by
  simp [scalarText, described, h]

theorem declare_shown {o : Options} (h : o.noIntrospection = true) (k : Kind) (n d : Str) :
    declareText o k (n, d) = declareText { o with noIntrospection := false } k (n, []) := by
  simp [declareText, described, h]

theorem input_shown {o : Options} (h : o.noIntrospection = true) (i : Str) (f : InputField) :
    inputValueText o i f = inputValueText { o with noIntrospection := false } i { f with description := [] } := by
  simp [inputValueText, described, h]

theorem field_shown {o : Options} (h : o.noIntrospection = true) (f : OutputField) :
    fieldText o f = fieldText { o with noIntrospection := false }
      { f with description := [], arguments := f.arguments.map fun a => { a with description := [] } } := by
  simp [fieldText, described, h, funext (input_shown h (str "\t\t\t")), Function.comp_def]

theorem enum_shown {o : Options} (h : o.noIntrospection = true) (t : EnumType) :
    enumDetailsText o t = enumDetailsText { o with noIntrospection := false }
      { t with description := [], values := t.values.map fun v => { v with description := [] } } := by
  have e : ∀ v, enumValueText o t v = enumValueText { o with noIntrospection := false }
      { t with description := [], values := t.values.map fun v => { v with description := [] } } { v with description := [] } := by
    intro v; simp [enumValueText, described, h]
  simp only [enumDetailsText, map_isEmpty, List.map_map, funext e, Function.comp_def]

theorem inputDetails_shown {o : Options} (h : o.noIntrospection = true) (t : InputType) :
    inputDetailsText o t = inputDetailsText { o with noIntrospection := false }
      { t with description := [], fields := t.fields.map fun f => { f with description := [] } } := by
  simp [inputDetailsText, funext (input_shown h (str "\t\t")), Function.comp_def]

theorem fields_shown {o : Options} (h : o.noIntrospection = true) (n : Str) (fs : List OutputField) :
    fieldsText o n fs = fieldsText { o with noIntrospection := false } n (fs.map fun f =>
      { f with description := [], arguments := f.arguments.map fun a => { a with description := [] } }) := by
  simp [fieldsText, funext (field_shown h), Function.comp_def]

/-- An object without descriptions. -/
def bareObject (t : ObjectType) : ObjectType :=
  { t with
    description := []
    fields := t.fields.map fun f =>
      { f with description := [], arguments := f.arguments.map fun a => { a with description := [] } } }

theorem introspection_shown {o : Options} (h : o.noIntrospection = true) (t : ObjectType) :
    objectIntrospection o t = objectIntrospection { o with noIntrospection := false } (bareObject t) := by
  simp only [objectIntrospection, fields_shown h, bareObject]
  rfl

theorem object_shown {o : Options} (h : o.noIntrospection = true) (t : ObjectType) :
    objectDetailsText o t = objectDetailsText { o with noIntrospection := false } (bareObject t) := by
  simp only [objectDetailsText, introspection_shown h]
  rfl

theorem directive_shown {o : Options} (h : o.noIntrospection = true) (d : DirectiveType) :
    directiveText o d = directiveText { o with noIntrospection := false }
      { d with description := [], arguments := d.arguments.map fun a => { a with description := [] } } := by
  simp [directiveText, described, h, funext (input_shown h (str "\t\t")), Function.comp_def]

theorem rest_shown {o : Options} (h : o.noIntrospection = true) (l : Loader) :
    restText o l = restText { o with noIntrospection := false } (withoutDescriptions l) := by
  simp only [restText, withoutDescriptions, List.flatMap_map, map_isEmpty]
  simp only [funext (scalar_shown h), declare_shown h, funext (enum_shown h), funext (inputDetails_shown h), fields_shown h,
    funext (object_shown h), funext (directive_shown h)]
  rfl

theorem closed_section {b : Bool} {s : Str} {a : List Tok} (h : Closed s a) (hb : b = true → a = []) : Closed (section' b s) a := by
  cases b with
  | true => rw [hb rfl]; exact Closed.nil
  | false =>
    have h1 : Closed (str "\n") [] := Closed.lit _ (by decide +kernel)
    simpa [section'] using h1.then h

theorem variable_mem {l : Loader} :
    (∀ t ∈ l.enumTypes, t.type ∈ variableTypes l) ∧ (∀ t ∈ l.inputTypes, t.type ∈ variableTypes l) ∧
    (∀ t ∈ l.unionTypes, t.type ∈ variableTypes l) ∧ (∀ t ∈ l.interfaceTypes, t.type ∈ variableTypes l) ∧
    (∀ t ∈ l.objectTypes, t.type ∈ variableTypes l) := by
  refine ⟨?_, ?_, ?_, ?_, ?_⟩ <;> intro t ht <;>
  (have h := List.mem_map_of_mem (f := fun x => x.type) ht
   simp only [variableTypes, List.mem_append]
   tauto)

/-- The statements of the introspection schema do not set operations. -/
def noOperations (b : Bool) (l : Loader) : Loader := if b then { l with operationTypes := [] } else l

variable {o : Options}

theorem closed_declareAll (ho : o.noIntrospection = false) {α : Type} (k : Kind) (name description : α → Str) {ts : List α}
    (h : ∀ t ∈ ts, IsName (name t) ∧ str "type" ++ cpp (name t) ∉ keywords ∧ MdOk (description t)) :
    Closed (ts.flatMap fun t => declareText o k (name t, description t))
      ((ts.flatMap fun t => declareS k (name t, description t)).flatMap Cpp.Stmt.tokens) := by
  rw [List.flatMap_assoc]
  exact closed_flatMap fun t ht => closed_declare ho k (h t ht).1 (h t ht).2.1 (h t ht).2.2

/-- The declarations. -/
def declarationsText (o : Options) (l : Loader) : Str :=
  l.scalarTypes.flatMap (scalarText o) ++
  l.enumTypes.flatMap (fun t => declareText o .enum (t.type, t.description)) ++
  l.inputTypes.flatMap (fun t => declareText o .inputObject (t.type, t.description)) ++
  l.unionTypes.flatMap (fun t => declareText o .union (t.type, t.description)) ++
  l.interfaceTypes.flatMap (fun t => declareText o .interface (t.type, t.description)) ++
  l.objectTypes.flatMap (fun t => declareText o .object (t.type, t.description))

theorem closed_declarations (ho : o.noIntrospection = false) {l : Loader} (h : Writable l) :
    Closed (declarationsText o l) ((declarations l).flatMap Cpp.Stmt.tokens) := by
  obtain ⟨m1, m2, m3, m4, m5⟩ := variable_mem (l := l)
  have c0 : Closed (l.scalarTypes.flatMap (scalarText o)) ((l.scalarTypes.map scalarS).flatMap Cpp.Stmt.tokens) := by
    rw [List.flatMap_map]
    exact closed_flatMap fun t ht => closed_scalar ho (h.scalars t ht).1 (h.scalars t ht).2
  have c1 := closed_declareAll ho .enum (fun t : EnumType => t.type) (fun t => t.description) (ts := l.enumTypes)
    fun t ht => ⟨h.names _ (m1 t ht), h.words _ (m1 t ht), (h.enums t ht).1⟩
  have c2 := closed_declareAll ho .inputObject (fun t : InputType => t.type) (fun t => t.description) (ts := l.inputTypes)
    fun t ht => ⟨h.names _ (m2 t ht), h.words _ (m2 t ht), (h.inputs t ht).1⟩
  have c3 := closed_declareAll ho .union (fun t : UnionType => t.type) (fun t => t.description) (ts := l.unionTypes)
    fun t ht => ⟨h.names _ (m3 t ht), h.words _ (m3 t ht), (h.unions t ht).1⟩
  have c4 := closed_declareAll ho .interface (fun t : InterfaceType => t.type) (fun t => t.description) (ts := l.interfaceTypes)
    fun t ht => ⟨h.names _ (m4 t ht), h.words _ (m4 t ht), (h.interfaces t ht).1⟩
  have c5 := closed_declareAll ho .object (fun t : ObjectType => t.type) (fun t => t.description) (ts := l.objectTypes)
    fun t ht => ⟨h.names _ (m5 t ht), h.words _ (m5 t ht), (h.objects t ht).1⟩
  have c := ((((c0.then c1).then c2).then c3).then c4).then c5
  simp only [← List.flatMap_append] at c
  exact c

theorem closed_details {α : Type} {f : α → Str} {g : α → List Cpp.Stmt} {ts : List α}
    (h : ∀ t ∈ ts, Closed (f t) ((g t).flatMap Cpp.Stmt.tokens)) :
    Closed (section' ts.isEmpty (ts.flatMap f)) ((ts.flatMap g).flatMap Cpp.Stmt.tokens) := by
  refine closed_section ?_ ?_
  · rw [List.flatMap_assoc]; exact closed_flatMap h
  · intro he
    have : ts = [] := by simpa using he
    simp [this]

/-- The details. -/
def detailsText (o : Options) (l : Loader) : Str :=
  section' l.enumTypes.isEmpty (l.enumTypes.flatMap (enumDetailsText o)) ++
  section' l.inputTypes.isEmpty (l.inputTypes.flatMap (inputDetailsText o)) ++
  section' l.unionTypes.isEmpty (l.unionTypes.flatMap unionDetailsText) ++
  section' l.interfaceTypes.isEmpty (l.interfaceTypes.flatMap fun t => fieldsText o t.type t.fields) ++
  section' l.objectTypes.isEmpty (l.objectTypes.flatMap (objectDetailsText o)) ++
  section' l.directives.isEmpty (l.directives.flatMap (directiveText o))

theorem interface_ok {l : Loader} (h : Writable l) :
    ∀ t ∈ l.objectTypes, ∀ n ∈ t.interfaces, IsName n ∧ str "type" ++ cpp n ∉ keywords := by
  intro t ht n hn
  obtain ⟨i, hi, rfl⟩ := List.mem_map.1 ((h.objects t ht).2.2 n hn)
  exact ⟨h.names _ (variable_mem.2.2.2.1 i hi), h.words _ (variable_mem.2.2.2.1 i hi)⟩

/-- The statements of an object. -/
def objectStmts (separate : Bool) (t : ObjectType) : List Cpp.Stmt := if separate then [objectCallS t] else objectS false t

theorem closed_objectDetails (ho : o.noIntrospection = false) {l : Loader} (h : Writable l) (t : ObjectType) (ht : t ∈ l.objectTypes) :
    Closed (objectDetailsText o t) ((objectStmts o.separateFiles t).flatMap Cpp.Stmt.tokens) := by
  have m := variable_mem.2.2.2.2 t ht
  unfold objectDetailsText objectStmts
  cases hsep : o.separateFiles with
  | true => simpa using closed_objectCall (h.names _ m) (h.words _ m)
  | false =>
    have := closed_object ho (h.names _ m) (h.words _ m) (h.objects t ht).2.1 (interface_ok h t ht)
    rw [hsep] at this
    simpa using this

theorem closed_detailsText (ho : o.noIntrospection = false) {ns : Path} (hns : IsNamespace o.schemaNamespace ns) {l : Loader}
    (h : Writable l) :
    Closed (detailsText o l) ((l.enumTypes.flatMap (enumS ns) ++ l.inputTypes.flatMap inputS ++ l.unionTypes.flatMap unionS ++
      l.interfaceTypes.flatMap (fun t => fieldsS t.type t.fields) ++ l.objectTypes.flatMap (objectStmts o.separateFiles) ++
      l.directives.flatMap (fun d => [directiveS d])).flatMap Cpp.Stmt.tokens) := by
  obtain ⟨m1, m2, m3, m4, m5⟩ := variable_mem (l := l)
  have d1 := closed_details (f := enumDetailsText o) (g := enumS ns) (ts := l.enumTypes)
    fun t ht => closed_enum ho hns (h.names _ (m1 t ht)) (h.enums t ht).2.1 (h.words _ (m1 t ht)) (h.enums t ht).2.2.2
  have d2 := closed_details (f := inputDetailsText o) (g := inputS) (ts := l.inputTypes)
    fun t ht => closed_inputType ho (h.names _ (m2 t ht)) (h.words _ (m2 t ht)) (h.inputs t ht).2
  have d3 := closed_details (f := unionDetailsText) (g := unionS) (ts := l.unionTypes)
    fun t ht => closed_union (h.names _ (m3 t ht)) (h.words _ (m3 t ht)) (h.unions t ht).2
  have d4 := closed_details (f := fun t : InterfaceType => fieldsText o t.type t.fields) (g := fun t => fieldsS t.type t.fields)
    (ts := l.interfaceTypes) fun t ht => closed_fields ho (h.names _ (m4 t ht)) (h.words _ (m4 t ht)) (h.interfaces t ht).2
  have d5 := closed_details (f := objectDetailsText o) (g := objectStmts o.separateFiles) (ts := l.objectTypes)
    fun t ht => closed_objectDetails ho h t ht
  have d6 := closed_details (f := directiveText o) (g := fun d => [directiveS d]) (ts := l.directives)
    fun d hd => by
      have := closed_directive ho (h.directives d hd).1 (h.directives d hd).2.1 (h.directives d hd).2.2.1 (h.directives d hd).2.2.2
      simpa using this
  have d := ((((d1.then d2).then d3).then d4).then d5).then d6
  simp only [← List.flatMap_append] at d
  exact d

theorem noOperations_eq (o : Options) (b : Bool) (l : Loader) :
    declarationsText o (noOperations b l) = declarationsText o l ∧ detailsText o (noOperations b l) = detailsText o l := by
  cases b <;> exact ⟨rfl, rfl⟩

theorem flatMap_single {α β : Type} (f : α → β) (xs : List α) : (xs.flatMap fun x => [f x]) = xs.map f := by
  induction xs with
  | nil => rfl
  | cons x xs ih => simp [ih]

theorem body_eq (ns : Path) (separate : Bool) (l : Loader) :
    body ns separate l = declarations l ++ ((l.enumTypes.flatMap (enumS ns) ++ l.inputTypes.flatMap inputS ++
      l.unionTypes.flatMap unionS ++ l.interfaceTypes.flatMap (fun t => fieldsS t.type t.fields) ++
      l.objectTypes.flatMap (objectStmts separate) ++ l.directives.flatMap (fun d => [directiveS d])) ++
      l.operationTypes.map operationS) := by
  have e : l.objectTypes.flatMap (objectStmts separate) =
      if separate then l.objectTypes.map objectCallS else l.objectTypes.flatMap (objectS false) := by
    cases separate
    · rfl
    · exact flatMap_single objectCallS l.objectTypes
  simp only [body, details, e, flatMap_single]

theorem closed_rest (ho : o.noIntrospection = false) {ns : Path} (hns : IsNamespace o.schemaNamespace ns) {l : Loader}
    (h : Writable (noOperations o.isIntrospection l)) :
    Closed (restText o l) ((body ns o.separateFiles (noOperations o.isIntrospection l)).flatMap Cpp.Stmt.tokens) := by
  have hops : Closed (section' o.isIntrospection (l.operationTypes.flatMap operationText))
      (((noOperations o.isIntrospection l).operationTypes.map operationS).flatMap Cpp.Stmt.tokens) := by
    cases hb : o.isIntrospection with
    | true => exact Closed.nil
    | false =>
      rw [hb] at h
      refine closed_section ?_ (by simp)
      rw [List.flatMap_map]
      refine closed_flatMap fun x hx => ?_
      obtain ⟨h1, h2⟩ := h.operations x hx
      obtain ⟨t, ht, ht'⟩ := List.mem_map.1 h2
      have := variable_mem.2.2.2.2 t ht
      rw [ht'] at this
      exact closed_operation h1 (h.names _ this) (h.words _ this)
  have c := (closed_declarations ho h).then ((closed_detailsText ho hns h).then hops)
  rw [(noOperations_eq o _ l).1, (noOperations_eq o _ l).2, ← List.flatMap_append, ← List.flatMap_append, ← body_eq] at c
  refine Closed.of c ?_ rfl
  simp only [restText, declarationsText, detailsText, List.append_assoc]

theorem closed_builtins (ho : o.noIntrospection = false) (d : Str) (hd : MdOk d) :
    Closed (builtinNames.flatMap fun n => scalarText o { type := n, description := d })
      ((builtinNames.map fun n => scalarS { type := n, description := d }).flatMap Cpp.Stmt.tokens) := by
  rw [List.flatMap_map]
  refine closed_flatMap fun n hn => closed_scalar ho ?_ hd
  simp only [builtinNames, List.mem_cons, List.not_mem_nil, or_false] at hn
  rcases hn with rfl | rfl | rfl | rfl | rfl
  exacts [⟨chr 'B', str "oolean", rfl, by decide, by decide⟩, ⟨chr 'F', str "loat", rfl, by decide, by decide⟩,
    ⟨chr 'I', str "D", rfl, by decide, by decide⟩, ⟨chr 'I', str "nt", rfl, by decide, by decide⟩,
    ⟨chr 'S', str "tring", rfl, by decide, by decide⟩]

/-! ## Functions -/

/-- The built-in types in front. -/
def withBuiltins (b : Bool) (d : Str) (l : Loader) : Loader :=
  if b then { l with scalarTypes := builtinNames.map (fun n => { type := n, description := d }) ++ l.scalarTypes } else l

theorem shown_eq (o : Options) (l : Loader) :
    shown o l = withBuiltins o.isIntrospection (described o (str "Built-in type"))
      (noOperations o.isIntrospection (if o.noIntrospection then withoutDescriptions l else l)) := by
  obtain ⟨a, b, c, d⟩ := o
  cases a <;> cases c <;> rfl

theorem writable_without {b : Bool} {d : Str} {l : Loader} (h : Writable (withBuiltins b d l)) : Writable l := by
  cases b with
  | false => exact h
  | true =>
    obtain ⟨h1, h2, h3, h4, h5, h6, h7, h8, h9, h10, h11⟩ := h
    exact ⟨fun t ht => h1 t (List.mem_append_right _ ht), h2, h3, h4, h5, h6, h7, h8, h9, h10, h11⟩

theorem body_builtins (ns : Path) (separate b : Bool) (d : Str) (l : Loader) :
    body ns separate (withBuiltins b d l) =
      (if b then builtinNames.map fun n => scalarS { type := n, description := d } else []) ++ body ns separate l := by
  cases b with
  | false => rfl
  | true => simp [withBuiltins, body, declarations, details, Function.comp_def]

theorem md_empty : MdOk [] := by
  intro a b h
  have := congrArg List.length h
  simp [str] at this

theorem md_builtin : MdOk (str "Built-in type") := by
  intro a b h
  have : chr ')' ∈ str "Built-in type" := by
    rw [h, List.mem_append, List.mem_append]; exact .inl (.inr (by decide))
  exact absurd this (by decide)

theorem closed_body {ns : Path} (hns : IsNamespace o.schemaNamespace ns) {l : Loader} (h : Writable (shown o l)) :
    Closed (bodyText o l) ((body ns o.separateFiles (shown o l)).flatMap Cpp.Stmt.tokens) := by
  rw [shown_eq] at h ⊢
  have hw := writable_without h
  rw [body_rest, body_builtins, List.flatMap_append]
  have hb : Closed (if o.isIntrospection then builtinNames.flatMap (builtinText o) else [])
      ((if o.isIntrospection then builtinNames.map fun n => scalarS { type := n, description := described o (str "Built-in type") }
        else []).flatMap Cpp.Stmt.tokens) := by
    cases o.isIntrospection with
    | false => exact Closed.nil
    | true =>
      simp only [if_true]
      cases hn : o.noIntrospection with
      | false =>
        have e : described o (str "Built-in type") = str "Built-in type" := by simp [described, hn]
        rw [e]
        exact closed_builtins hn _ md_builtin
      | true =>
        rw [described_empty hn]
        have := closed_builtins (o := { o with noIntrospection := false }) rfl [] md_empty
        refine Closed.of this ?_ rfl
        congr 1
        funext n
        exact scalar_shown hn _
  refine hb.then ?_
  cases hn : o.noIntrospection with
  | false =>
    rw [hn] at hw
    exact closed_rest hn hns hw
  | true =>
    rw [hn] at hw
    rw [rest_shown hn]
    exact closed_rest (o := { o with noIntrospection := false }) rfl hns hw

/-- The parameter of `AddTypesToSchema`. -/
def schemaParam : Param := ⟨true, path "schema" ["Schema"], str "schema"⟩

def typesFunction (ns : Path) (separate : Bool) (l : Loader) : Decl :=
  .function (str "AddTypesToSchema") [schemaParam] (body ns separate l)

theorem Closed.lexes {s : Str} {a : List Tok} (h : Closed s a) : Lexes s a := by
  have := h [] [] .done
  simpa using this

theorem closed_function {ns : Path} (hns : IsNamespace o.schemaNamespace ns) {l : Loader} (h : Writable (shown o l)) :
    Closed (functionText o l) (typesFunction ns o.separateFiles (shown o l)).tokens := by
  have h1 : Closed (str "void AddTypesToSchema(const std::shared_ptr<schema::Schema>& schema)\n{\n")
    [kw "void", .word (str "AddTypesToSchema"), p "(", kw "const", .word (str "std"), p "::", .word (str "shared_ptr"), p "<",
     .word (str "schema"), p "::", .word (str "Schema"), p ">", p "&", .word (str "schema"), p ")", p "{"] :=
    Closed.lit _ (by decide +kernel)
  have h2 : Closed (str "}\n\n") [p "}"] := Closed.lit _ (by decide +kernel)
  refine Closed.of ((h1.then (closed_body hns h)).then h2) rfl ?_
  simp [typesFunction, Decl.tokens, schemaParam, commaTokens, Param.tokens, Path.tokens, path]

/-- The function of an object in a separate file. -/
def objectFunction (t : ObjectType) : Decl :=
  .function (detailsName t) [⟨false, path "schema" ["ObjectType"], typeVar t.type⟩, schemaParam] (objectS true t)

theorem closed_objectFunction (ho : o.noIntrospection = false) (hs : o.separateFiles = true) {l : Loader} (h : Writable l)
    {t : ObjectType} (ht : t ∈ l.objectTypes) : Closed (objectFunctionText o t) (objectFunction t).tokens := by
  have m := variable_mem.2.2.2.2 t ht
  have h1 : Closed (str "void ") [kw "void"] := Closed.lit _ (by decide +kernel)
  have h2 : Closed (str "(std::shared_ptr<schema::ObjectType> ") [p "(", .word (str "std"), p "::", .word (str "shared_ptr"), p "<",
    .word (str "schema"), p "::", .word (str "ObjectType"), p ">"] := Closed.lit _ (by decide +kernel)
  have h3 : Closed (str ", const std::shared_ptr<schema::Schema>& schema)\n{\n") [p ",", kw "const", .word (str "std"), p "::",
    .word (str "shared_ptr"), p "<", .word (str "schema"), p "::", .word (str "Schema"), p ">", p "&", .word (str "schema"), p ")",
    p "{"] := Closed.lit _ (by decide +kernel)
  have h4 : Closed (str "}\n\n") [p "}"] := Closed.lit _ (by decide +kernel)
  have hn := h.names _ m
  have hk := h.words _ m
  have hb := closed_object ho hn hk (h.objects t ht).2.1 (interface_ok h t ht)
  rw [hs] at hb
  refine Closed.of ((((((h1.thenP (Piece.word (details_name hn).1 (details_name hn).2)).then h2 (Begins.lit (by decide))).thenP
    (piece_typeVar hn hk)).then h3 (Begins.lit (by decide))).then hb).then h4) ?_ ?_
  · have e1 : str "void Add" = str "void " ++ str "Add" := by decide
    have e2 : str "Details(std::shared_ptr<schema::ObjectType> type" =
      str "Details" ++ str "(std::shared_ptr<schema::ObjectType> " ++ str "type" := by decide +kernel
    simp only [objectFunctionText, detailsName, e1, e2, List.append_assoc]
  · simp [objectFunction, Decl.tokens, schemaParam, commaTokens, Param.tokens, Path.tokens, path]

/-! ## Enums -/

def enumDecl (t : EnumType) : Decl := .enumClass (cpp t.type) (t.values.map (·.value))

theorem closed_enumClass {t : EnumType} (hn : IsName t.type) (hk : cpp t.type ∉ keywords)
    (h : ∀ v ∈ t.values, IsName v.value ∧ v.value ∉ keywords) :
    Closed (enumClass t) (enumDecl t).tokens := by
  have h1 : Closed (str "enum class ") [kw "enum", kw "class"] := Closed.lit _ (by decide +kernel)
  have h2 : Closed (str "\n{\n") [p "{"] := Closed.lit _ (by decide +kernel)
  have h3 : Closed (str "\n};\n\n") [p "}", p ";"] := Closed.lit _ (by decide +kernel)
  have hv : Piece (commas (t.values.map fun v => str "\t" ++ v.value)) (commaTokens (t.values.map fun v => [.word v.value])) :=
    piece_commas' (forall₂_map fun v hv => Piece.of (lit_tab.thenP (Piece.word (h v hv).1 (h v hv).2)) rfl rfl)
  refine Closed.of ((((h1.thenP (Piece.word (cpp_name hn) hk)).then h2 (Begins.lit (by decide))).thenP hv).then h3
    (Begins.lit (by decide))) ?_ ?_
  · simp only [enumClass, List.append_assoc]
  · simp [enumDecl, Decl.tokens, Function.comp_def]

def arrayDecl (t : EnumType) : Decl := .array t.values.length (str "s_names" ++ cpp t.type) (t.values.map (·.value))

theorem digit_char : ∀ c : Char, c.isDigit = true → isDigit (BitVec.ofNat 8 c.toNat) = true := by
  intro c hc
  simp only [Char.isDigit, Bool.and_eq_true, decide_eq_true_eq] at hc
  have h1 : 48 ≤ c.toNat := hc.1
  have h2 : c.toNat ≤ 57 := hc.2
  have key : ∀ n : Nat, n < 58 → 48 ≤ n → isDigit (BitVec.ofNat 8 n) = true := by decide +kernel
  exact key _ (by omega) h1

theorem number_digits (n : Nat) : ∃ c cs, str (toString n) = c :: cs ∧ isDigit c = true ∧ ∀ d ∈ cs, isDigit d = true := by
  have hall : ∀ c ∈ str (toString n), isDigit c = true := by
    intro c hc
    simp only [str, List.mem_map] at hc
    obtain ⟨d, hd, rfl⟩ := hc
    have : d ∈ Nat.toDigits 10 n := by
      have e : (toString n).toList = Nat.toDigits 10 n := by simp [toString, Nat.repr]
      rwa [e] at hd
    exact digit_char d (Nat.isDigit_of_mem_toDigits (b := 10) (by decide) (by decide) this)
  have hne : str (toString n) ≠ [] := by
    have e : (toString n).toList = Nat.toDigits 10 n := by simp [toString, Nat.repr]
    simp [str, e, Nat.toDigits_ne_nil]
  cases h : str (toString n) with
  | nil => exact absurd h hne
  | cons c cs =>
    rw [h] at hall
    exact ⟨c, cs, rfl, hall c (by simp), fun d hd => hall d (by simp [hd])⟩

theorem digit_start : ∀ c : Byte, isDigit c = true → nameStart c = false := by decide +kernel
theorem digit_cont : ∀ c : Byte, nameCont c = false → isDigit c = false := by decide +kernel

theorem digits_number {c : Byte} {cs : Str} (h1 : isDigit c = true) (h2 : ∀ d ∈ cs, isDigit d = true) {d : Byte}
    (hd : nameCont d = false) (h3 : d ≠ chr '.') (h4 : d ≠ chr '\'') (r : Str) :
    numberText (c :: cs ++ d :: r) = some (c :: cs, d :: r) := by
  obtain ⟨t1, t2⟩ := takeWhile_all (s := c :: cs) (t := d :: r)
    (by intro x hx; rcases List.mem_cons.1 hx with rfl | hx; exacts [h1, h2 x hx])
    (by rintro _ _ ⟨⟩; exact digit_cont d hd)
  have he : ¬ (d = chr 'e' ∨ d = chr 'E') := by
    rintro (rfl | rfl) <;> exact absurd hd (by decide)
  have e1 : fractionText (d :: r) = ([], d :: r) := by rw [fractionText, if_neg h3]
  have e2 : exponentText (d :: r) = some ([], d :: r) := by unfold exponentText; simp only [if_neg he]
  simp only [numberText, t1, t2, e1, e2]
  simp [hd, h3, h4]

/-- A number, in front of something which is not a part of it. -/
theorem lexes_number (n : Nat) {d : Byte} {r : Str} {b : List Tok} (hd : nameCont d = false) (h3 : d ≠ chr '.')
    (h4 : d ≠ chr '\'') (hr : Lexes (d :: r) b) :
    Lexes (str (toString n) ++ d :: r) (.number (str (toString n)) :: b) := by
  obtain ⟨c, cs, e, h1, h2⟩ := number_digits n
  rw [e]
  refine .token (rest := d :: r) ?_ hr
  have := digits_number h1 h2 hd h3 h4 r
  rw [List.cons_append] at this ⊢
  simp [Cpp.token, digit_start c h1, h1, this]

theorem closed_array {t : EnumType} (hn : IsName t.type) (h : ∀ v ∈ t.values, IsName v.value) :
    Closed (namesArray t) (arrayDecl t).tokens := by
  have h1 : Closed (str "static const std::array<std::string_view, ") [kw "static", kw "const", .word (str "std"), p "::",
    .word (str "array"), p "<", .word (str "std"), p "::", .word (str "string_view"), p ","] := Closed.lit _ (by decide +kernel)
  have h2 : Closed (str "> ") [p ">"] := Closed.lit _ (by decide +kernel)
  have h3 : Closed (str " = {\n") [p "=", p "{"] := Closed.lit _ (by decide +kernel)
  have h4 : Closed (str "\n};\n") [p "}", p ";"] := Closed.lit _ (by decide +kernel)
  have hv : Piece (commas (t.values.map fun v => str "\t\"" ++ v.value ++ str "\"sv"))
      (commaTokens (t.values.map fun v => [.text v.value true])) := by
    refine piece_commas' (forall₂_map fun v hv => Piece.of (lit_tab.thenP (piece_quotedView (h v hv))) ?_ rfl)
    have e : str "\t\"" = str "\t" ++ str "\"" := by decide
    simp only [e, List.append_assoc]
  have hn2 : Closed (str (toString t.values.length) ++ str "> ") [.number (str (toString t.values.length)), p ">"] := by
    intro r b hr
    rw [List.append_assoc]
    exact lexes_number _ (by decide) (by decide) (by decide) (h2 r b hr)
  refine Closed.of (((((h1.then hn2).thenP
    (Piece.word (snames_name (cpp_name hn)) (snames_word _))).then h3 (Begins.lit (by decide))).thenP hv).then h4
    (Begins.lit (by decide))) ?_ ?_
  · have e : str "> s_names" = str "> " ++ str "s_names" := by decide
    simp only [namesArray, e, List.append_assoc]
  · simp [arrayDecl, Decl.tokens, Function.comp_def, Path.tokens, path]

end Verif.GenText
