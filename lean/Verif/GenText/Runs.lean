import Verif.GenText.ReadAll

/-!
# Running the statements of `AddTypesToSchema`
-/
namespace Verif.GenText
open Verif.Value Verif.Gen Verif.Modifiers Verif.Text Verif.Cpp
open Verif.Schema.Wrap (Kind Addr)

variable {C : Context} {Γ : Vars}

/-! ## Types -/

def typeB : Bool → List Mod → Str → Build Addr
  | nn, [], t => do let a ← lookupType t; wrapNonNull nn a
  | nn, .list :: ms, t => do
    let a ← typeB true ms t
    let b ← wrapType .list a
    wrapNonNull nn b
  | _, .nullable :: ms, t => typeB false ms t

theorem loop_append (xs ys : List Mod) (a : Addr) (nn : Bool) :
    schemaTypeLoop (xs ++ ys) a nn = (do
      let r ← schemaTypeLoop xs a nn
      schemaTypeLoop ys r.1 r.2) := by
  induction xs generalizing a nn with
  | nil => simp [schemaTypeLoop]
  | cons m xs ih =>
    cases m with
    | list => simp [schemaTypeLoop, ih]
    | nullable => simp [schemaTypeLoop, ih]

theorem typeB_eq (ms : List Mod) (t : Str) :
    (typeB true ms t = do
      let a ← lookupType t
      let r ← schemaTypeLoop ms.reverse a true
      wrapNonNull r.2 r.1) ∧
    (typeB false ms t = (do
      let a ← lookupType t
      let r ← schemaTypeLoop ms.reverse a true
      pure r.1)) := by
  induction ms with
  | nil => simp [typeB, schemaTypeLoop, wrapNonNull]
  | cons m ms ih =>
    cases m with
    | list => simp [typeB, loop_append, schemaTypeLoop, ih.1, wrapNonNull]
    | nullable => simp [typeB, loop_append, schemaTypeLoop, ih.2, wrapNonNull]

theorem typeB_getSchemaType (ms : List Mod) (t : Str) : typeB true ms t = getSchemaType t ms := by
  rw [(typeB_eq ms t).1]
  rfl

theorem eval_const {q : Path} (hq : q.tail ≠ []) {c : Const} (hc : consts.lookup q = some c) :
    eval C Γ (.name q) = match (generalizing := false) c with
      | .nullopt => pure (.optional none)
      | .typeKind k => pure (.typeKind k)
      | .location l => pure (.location l) := by
  obtain ⟨h, t⟩ := q
  cases t with
  | nil => simp at hq
  | cons a t =>
    unfold eval
    simp only [hc]
    cases Γ.lookup h <;> cases c <;> rfl

theorem eval_var {n : Str} {v : Val} (h : Γ.lookup n = some v) : eval C Γ (.name (word n)) = pure v := by
  unfold eval
  simp only [word, h]

theorem eval_text (s : Str) (b : Bool) : eval C Γ (.text s b) = pure (.text s) := by unfold eval; rfl

theorem eval_lookup (hs : Γ.lookup schemaVar = some .schema) (t : Str) (b : Bool) :
    eval C Γ (lookupE t b) = (do let a ← lookupType t; pure (.type none a)) := by
  have h : schemaFuns.lookup (str "LookupType") = some .lookupType := by decide +kernel
  unfold lookupE eval
  simp only [hs, h, evalArgs, eval_text, pure_bind, SchemaFun.apply]

theorem eval_wrapNN (hs : Γ.lookup schemaVar = some .schema) {e : Expr} {b : Build Addr}
    (he : eval C Γ e = do let a ← b; pure (.type none a)) :
    eval C Γ (nonNullE e) = (do
      let a ← b
      let c ← wrapType .nonNull a
      pure (.type none c)) := by
  have h : schemaFuns.lookup (str "WrapType") = some .wrapType := by decide +kernel
  have h2 := eval_const (C := C) (Γ := Γ) (q := path "introspection" ["TypeKind", "NON_NULL"]) (by decide)
    (c := .typeKind .nonNull) (by decide +kernel)
  unfold nonNullE eval
  simp only [hs, h, evalArgs, he, h2, pure_bind, bind_assoc, SchemaFun.apply]

theorem eval_wrapList (hs : Γ.lookup schemaVar = some .schema) {e : Expr} {b : Build Addr}
    (he : eval C Γ e = do let a ← b; pure (.type none a)) :
    eval C Γ (listE e) = (do
      let a ← b
      let c ← wrapType .list a
      pure (.type none c)) := by
  have h : schemaFuns.lookup (str "WrapType") = some .wrapType := by decide +kernel
  have h2 := eval_const (C := C) (Γ := Γ) (q := path "introspection" ["TypeKind", "LIST"]) (by decide)
    (c := .typeKind .list) (by decide +kernel)
  unfold listE eval
  simp only [hs, h, evalArgs, he, h2, pure_bind, bind_assoc, SchemaFun.apply]

theorem eval_typeE (hs : Γ.lookup schemaVar = some .schema) (nn : Bool) (ms : List Mod) (t : Str) :
    eval C Γ (typeE nn ms t) = (do let a ← typeB nn ms t; pure (.type none a)) := by
  induction ms generalizing nn with
  | nil =>
    cases nn with
    | false => simp [typeE, typeB, eval_lookup hs, wrapNonNull]
    | true => simp [typeE, typeB, eval_wrapNN hs (eval_lookup hs t false), wrapNonNull]
  | cons m ms ih =>
    cases m with
    | nullable => exact ih false
    | list =>
      cases nn with
      | false => simp [typeE, typeB, eval_wrapList hs (ih true), wrapNonNull]
      | true =>
        have h1 := eval_wrapList hs (ih true)
        have h2 := eval_wrapNN (C := C) hs (b := do let a ← typeB true ms t; wrapType .list a) (e := listE (typeE true ms t)) (by simp [h1])
        simp [typeE, typeB, h2, wrapNonNull]

theorem eval_type (hs : Γ.lookup schemaVar = some .schema) (ms : List Mod) (t : Str) :
    eval C Γ (typeE true ms t) = (do let a ← getSchemaType t ms; pure (.type none a)) := by
  rw [eval_typeE hs, typeB_getSchemaType]

/-! ## Lists -/

theorem eval_all {α β : Type} {e : α → Expr} {g : α → Build β} {inj : β → Val} {xs : List α}
    (h : ∀ x ∈ xs, eval C Γ (e x) = do let b ← g x; pure (inj b)) :
    evalList C Γ (xs.map e) = (do let bs ← xs.mapM g; pure (bs.map inj)) := by
  induction xs with
  | nil => simp [evalList]
  | cons x xs ih =>
    simp only [List.map_cons, evalList, h x (by simp), ih fun y hy => h y (by simp [hy]), List.mapM_cons, bind_assoc, pure_bind]

theorem back_all {β : Type} {inj : β → Val} {f : Val → Build β} (h : ∀ b, f (inj b) = pure b) (bs : List β) :
    (bs.map inj).mapM f = pure bs := by
  induction bs with
  | nil => simp
  | cons b bs ih => simp [h, ih]

/-! ## Members -/

theorem eval_input (hs : Γ.lookup schemaVar = some .schema) (f : InputField) :
    eval C Γ (inputE f) = (do let v ← inputValue f; pure (.input v)) := by
  have h : funs.lookup (path "schema" ["InputValue", "Make"]) = some .inputValue := by decide +kernel
  unfold inputE eval
  simp only [h, evalArgs, eval_text, eval_type hs, pure_bind, bind_assoc, Fun.apply, inputValue]

theorem eval_inputs (hs : Γ.lookup schemaVar = some .schema) (fs : List InputField) :
    eval C Γ (.braces (fs.map inputE)) = (do let vs ← fs.mapM inputValue; pure (.list (vs.map .input))) := by
  unfold eval
  simp only [eval_all (inj := Val.input) fun f _ => eval_input hs f, bind_assoc, pure_bind]

theorem eval_deprecation (r : Option Str) : eval C Γ (deprecationE r) = pure (.optional r) := by
  cases r with
  | none =>
    have := eval_const (C := C) (Γ := Γ) (q := path "std" ["nullopt"]) (by decide) (c := .nullopt) (by decide +kernel)
    exact this
  | some x =>
    have h : funs.lookup (path "std" ["make_optional"]) = some .makeOptional := by decide +kernel
    unfold deprecationE eval
    simp only [h, evalArgs, eval_text, pure_bind, Fun.apply]

theorem back_inputs (vs : List TypeSystem.InputValue) : (vs.map Val.input).mapM Val.asInput = pure vs :=
  back_all (inj := Val.input) (f := Val.asInput) (fun _ => rfl) vs

theorem eval_field (hs : Γ.lookup schemaVar = some .schema) (f : OutputField) :
    eval C Γ (fieldE f) = (do let v ← outputField f; pure (.field v)) := by
  have h : funs.lookup (path "schema" ["Field", "Make"]) = some .field := by decide +kernel
  unfold fieldE eval
  cases ha : f.arguments.isEmpty with
  | true =>
    have e : f.arguments = [] := by simpa using ha
    simp only [h, if_true, List.append_nil, evalArgs, eval_text, eval_deprecation, eval_type hs, pure_bind, bind_assoc, Fun.apply,
      outputField, e, List.mapM_nil]
  | false =>
    simp only [h, if_false, Bool.false_eq_true, List.cons_append, List.nil_append, evalArgs, eval_inputs hs, eval_text,
      eval_deprecation, eval_type hs, pure_bind, bind_assoc, Fun.apply, back_inputs, outputField]

theorem eval_fields (hs : Γ.lookup schemaVar = some .schema) (fs : List OutputField) :
    eval C Γ (.braces (fs.map fieldE)) = (do let vs ← fs.mapM outputField; pure (.list (vs.map .field))) := by
  unfold eval
  simp only [eval_all (inj := Val.field) fun f _ => eval_field hs f, bind_assoc, pure_bind]

theorem back_fields (vs : List TypeSystem.Field) : (vs.map Val.field).mapM Val.asField = pure vs :=
  back_all (inj := Val.field) (f := Val.asField) (fun _ => rfl) vs

theorem eval_lookups (hs : Γ.lookup schemaVar = some .schema) (ns : List Str) :
    eval C Γ (.braces (ns.map fun n => lookupE n true)) =
      (do let vs ← ns.mapM lookupType; pure (.list (vs.map (.type none)))) := by
  unfold eval
  simp only [eval_all (inj := Val.type none) fun n _ => eval_lookup hs n true, bind_assoc, pure_bind]

theorem back_types (vs : List Addr) : (vs.map (Val.type none)).mapM Val.asType = pure vs :=
  back_all (inj := Val.type none) (f := Val.asType) (fun _ => rfl) vs

/-! ## Statements -/

theorem run_method {x m : Str} {args : List Expr} :
    runStmt C Γ (.expr (.method x m args)) = (do let _ ← eval C Γ (.method x m args); pure Γ) := by
  simp only [runStmt]

theorem run_nil : runStmts C Γ [] = pure Γ := by simp only [runStmts]

theorem run_one (s : Cpp.Stmt) : runStmts C Γ [s] = runStmt C Γ s := by simp only [runStmts, bind_pure]

theorem run_append (a b : List Cpp.Stmt) : runStmts C Γ (a ++ b) = (do let Γ ← runStmts C Γ a; runStmts C Γ b) := by
  induction a generalizing Γ with
  | nil => simp [runStmts]
  | cons s a ih => simp [runStmts, ih]

/-- Statements which declare nothing. -/
theorem run_forM {α : Type} {f : α → List Cpp.Stmt} {g : α → Build Unit} {xs : List α}
    (h : ∀ x ∈ xs, runStmts C Γ (f x) = (do g x; pure Γ)) : runStmts C Γ (xs.flatMap f) = (do xs.forM g; pure Γ) := by
  induction xs with
  | nil => simp [runStmts]
  | cons x xs ih =>
    rw [List.flatMap_cons, run_append, h x (by simp)]
    simp [ih fun y hy => h y (by simp [hy])]

/-- A method of a type with a list. -/
theorem run_onType {n : Str} {m : String} {f : TypeFun} {k : Kind} {a : Addr} (hm : typeFuns.lookup (str m) = some f)
    (hn : Γ.lookup (typeVar n) = some (.type (some k) a)) {α : Type} {e : α → Expr} {xs : List α} {b : Build Val}
    {d : Build Unit} (he : eval C Γ (.braces (xs.map e)) = b)
    (hd : (do let v ← b; f.apply (some k) a [v]) = (do d; pure .void)) :
    runStmts C Γ (onType n m (xs.map e)) = (do (if xs.isEmpty then pure () else d); pure Γ) := by
  unfold onType
  rw [map_isEmpty]
  cases hx : xs.isEmpty with
  | true => simp [run_nil]
  | false =>
    simp only [Bool.false_eq_true, if_false, run_one, run_method]
    unfold eval
    simp only [evalArgs, he, hn, hm, pure_bind, bind_assoc]
    have h2 := congrArg (fun x : Build Val => (do let _ ← x; pure Γ : Build Vars)) hd
    simpa only [bind_assoc, pure_bind] using h2

theorem run_scalar (hs : Γ.lookup schemaVar = some .schema) (t : ScalarType) :
    runStmts C Γ [scalarS t] = (do addScalar t; pure Γ) := by
  have h1 : schemaFuns.lookup (str "AddType") = some .addType := by decide +kernel
  have h2 : funs.lookup (path "schema" ["ScalarType", "Make"]) = some (.make .scalar) := by decide +kernel
  rw [run_one, scalarS, run_method]
  unfold eval
  simp only [hs, h1, evalArgs, eval_text, pure_bind, bind_assoc]
  unfold eval
  simp only [h2, evalArgs, eval_text, pure_bind, bind_assoc, Fun.apply, SchemaFun.apply, addScalar]

theorem run_input (hs : Γ.lookup schemaVar = some .schema) {t : InputType} {m : TypeMap} {a : Addr} (hm : m.lookup t.type = some a)
    (hn : Γ.lookup (typeVar t.type) = some (.type (some .inputObject) a)) :
    runStmts C Γ (inputS t) = (do inputDetails m t; pure Γ) := by
  have := run_onType (C := C) (Γ := Γ) (n := t.type) (m := "AddInputValues") (f := .addInputValues) (k := .inputObject) (a := a)
    (by decide +kernel) hn (xs := t.fields) (d := do let fields ← t.fields.mapM inputValue; call (.addInputValues a fields))
    (eval_inputs hs t.fields) (by simp only [bind_assoc, pure_bind, TypeFun.apply, back_inputs])
  rw [inputS, this, inputDetails, hm]

theorem run_union (hs : Γ.lookup schemaVar = some .schema) {t : UnionType} {m : TypeMap} {a : Addr} (hm : m.lookup t.type = some a)
    (hn : Γ.lookup (typeVar t.type) = some (.type (some .union) a)) :
    runStmts C Γ (unionS t) = (do unionDetails m t; pure Γ) := by
  have := run_onType (C := C) (Γ := Γ) (n := t.type) (m := "AddPossibleTypes") (f := .addPossibleTypes) (k := .union) (a := a)
    (by decide +kernel) hn (xs := t.options) (d := do let types ← t.options.mapM lookupType; call (.addPossibleTypes a types))
    (eval_lookups hs t.options) (by simp only [bind_assoc, pure_bind, TypeFun.apply, back_types])
  rw [unionS, this, unionDetails, hm]

theorem run_interfaceFields (hs : Γ.lookup schemaVar = some .schema) {t : InterfaceType} {m : TypeMap} {a : Addr}
    (hm : m.lookup t.type = some a) (hn : Γ.lookup (typeVar t.type) = some (.type (some .interface) a)) :
    runStmts C Γ (fieldsS t.type t.fields) = (do interfaceDetails m t; pure Γ) := by
  have := run_onType (C := C) (Γ := Γ) (n := t.type) (m := "AddFields") (f := .addFields) (k := .interface) (a := a)
    (by decide +kernel) hn (xs := t.fields) (d := do let fields ← t.fields.mapM outputField; call (.addFields a fields))
    (eval_fields hs t.fields) (by simp only [bind_assoc, pure_bind, TypeFun.apply, back_fields])
  rw [fieldsS, this, interfaceDetails, hm]

theorem run_objectFields (hs : Γ.lookup schemaVar = some .schema) {t : ObjectType} {m : TypeMap} {a : Addr}
    (hm : m.lookup t.type = some a) (hn : Γ.lookup (typeVar t.type) = some (.type (some .object) a)) :
    runStmts C Γ (fieldsS t.type t.fields) = (do objectFields m t; pure Γ) := by
  have := run_onType (C := C) (Γ := Γ) (n := t.type) (m := "AddFields") (f := .addFields) (k := .object) (a := a)
    (by decide +kernel) hn (xs := t.fields) (d := do let fields ← t.fields.mapM outputField; call (.addFields a fields))
    (eval_fields hs t.fields) (by simp only [bind_assoc, pure_bind, TypeFun.apply, back_fields])
  rw [fieldsS, this, objectFields, hm]

theorem back_interfaces (vs : List Addr) : (vs.map (Val.type (some .interface))).mapM Val.asInterface = pure vs :=
  back_all (inj := Val.type (some .interface)) (f := Val.asInterface) (fun _ => rfl) vs

theorem run_objectInterfaces {t : ObjectType} {m interfaces : TypeMap} {a : Addr} {separate : Bool}
    (hi : ∀ n ∈ t.interfaces, eval C Γ (interfaceE separate n) = (do let a ← findInterface interfaces n; pure (.type (some .interface) a)))
    (hm : m.lookup t.type = some a) (hn : Γ.lookup (typeVar t.type) = some (.type (some .object) a)) :
    runStmts C Γ (interfacesS separate t) = (do objectInterfaces m interfaces t; pure Γ) := by
  have he : eval C Γ (.braces (t.interfaces.map (interfaceE separate))) =
      (do let vs ← t.interfaces.mapM (findInterface interfaces); pure (.list (vs.map (.type (some .interface))))) := by
    unfold eval
    simp only [eval_all (inj := Val.type (some .interface)) hi, bind_assoc, pure_bind]
  have := run_onType (C := C) (Γ := Γ) (n := t.type) (m := "AddInterfaces") (f := .addInterfaces) (k := .object) (a := a)
    (by decide +kernel) hn (xs := t.interfaces)
    (d := do let is ← t.interfaces.mapM (findInterface interfaces); call (.addInterfaces a is))
    he (by simp only [bind_assoc, pure_bind, TypeFun.apply, back_interfaces])
  rw [interfacesS, this, objectInterfaces, hm]

theorem run_object (hs : Γ.lookup schemaVar = some .schema) {t : ObjectType} {m interfaces : TypeMap} {a : Addr} {separate : Bool}
    (hi : ∀ n ∈ t.interfaces, eval C Γ (interfaceE separate n) = (do let a ← findInterface interfaces n; pure (.type (some .interface) a)))
    (hm : m.lookup t.type = some a) (hn : Γ.lookup (typeVar t.type) = some (.type (some .object) a)) :
    runStmts C Γ (objectS separate t) = (do objectDetails m interfaces t; pure Γ) := by
  rw [objectS, run_append, run_objectInterfaces hi hm hn]
  simp only [bind_assoc, pure_bind, run_objectFields hs hm hn, objectDetails]

theorem eval_location {n : Str} {x : TypeSystem.DirectiveLocation} (h : locationNames.lookup n = some x) :
    eval C Γ (locationE n) = (do let b ← directiveLocation n; pure (.location b)) := by
  have hm : n ∈ locationNames.map (·.1) := by
    have hf : ∀ (l : List (Str × TypeSystem.DirectiveLocation)), l.lookup n = some x → n ∈ l.map (·.1) := by
      intro l hl
      induction l with
      | nil => cases hl
      | cons e l ih =>
        rw [List.lookup_cons] at hl
        split at hl
        · rename_i he; simp at he; simp [he]
        · simp [ih hl]
    exact hf _ h
  have hc : consts.lookup ⟨str "introspection", [str "DirectiveLocation", n]⟩ = some (.location x) := by
    have key : ∀ n ∈ locationNames.map (·.1), consts.lookup ⟨str "introspection", [str "DirectiveLocation", n]⟩ =
        (locationNames.lookup n).map .location := by decide +kernel
    rw [key n hm, h]; rfl
  rw [locationE, eval_const (by simp) hc, directiveLocation, h]
  simp

theorem back_locations (vs : List TypeSystem.DirectiveLocation) : (vs.map Val.location).mapM Val.asLocation = pure vs :=
  back_all (inj := Val.location) (f := Val.asLocation) (fun _ => rfl) vs

theorem locations_known {ns : List Str} (h : ∀ n ∈ ns, n ∈ locationNames.map (·.1)) :
    ∃ xs, ns.mapM directiveLocation = pure xs ∧
      eval C Γ (.braces (ns.map locationE)) = pure (.list (xs.map .location)) := by
  have key : ∀ n ∈ locationNames.map (·.1), (locationNames.lookup n).isSome = true := by decide +kernel
  have h1 : ∃ xs, ns.mapM directiveLocation = pure xs := by
    induction ns with
    | nil => exact ⟨[], by simp⟩
    | cons n ns ih =>
      obtain ⟨xs, hx⟩ := ih fun m hm => h m (by simp [hm])
      obtain ⟨x, hx'⟩ := Option.isSome_iff_exists.1 (key n (h n (by simp)))
      refine ⟨x :: xs, ?_⟩
      simp [hx, directiveLocation, hx']
  obtain ⟨xs, hx⟩ := h1
  refine ⟨xs, hx, ?_⟩
  unfold eval
  rw [eval_all (g := directiveLocation) (inj := Val.location) fun n hn => ?_, hx]
  · simp
  · obtain ⟨x, hx'⟩ := Option.isSome_iff_exists.1 (key n (h n hn))
    exact eval_location hx'

theorem run_directive (hs : Γ.lookup schemaVar = some .schema) {d : DirectiveType}
    (hl : ∀ n ∈ d.locations, n ∈ locationNames.map (·.1)) : runStmts C Γ [directiveS d] = (do addDirective d; pure Γ) := by
  have h1 : schemaFuns.lookup (str "AddDirective") = some .addDirective := by decide +kernel
  have h2 : funs.lookup (path "schema" ["Directive", "Make"]) = some .directive := by decide +kernel
  obtain ⟨xs, hx1, hx2⟩ := locations_known (C := C) (Γ := Γ) hl
  rw [run_one, directiveS, run_method]
  unfold eval
  simp only [hs, h1, evalArgs, pure_bind, bind_assoc, directiveE]
  unfold eval
  cases ha : d.arguments.isEmpty with
  | true =>
    have e : d.arguments = [] := by simpa using ha
    simp only [h2, if_true, List.append_nil, evalArgs, eval_text, hx2, pure_bind, bind_assoc, Fun.apply, back_locations,
      SchemaFun.apply, addDirective, hx1, e, List.mapM_nil]
  | false =>
    simp only [h2, if_false, Bool.false_eq_true, List.cons_append, List.nil_append, evalArgs, eval_text, eval_inputs hs, hx2,
      pure_bind, bind_assoc, Fun.apply, back_locations, back_inputs, SchemaFun.apply, addDirective, hx1]

theorem run_operation (hs : Γ.lookup schemaVar = some .schema) {x : OperationType}
    (h : x.operation = str "query" ∨ x.operation = str "mutation" ∨ x.operation = str "subscription") {objects : TypeMap} {a : Addr}
    (hm : objects.lookup x.type = some a) (hn : Γ.lookup (typeVar x.type) = some (.type (some .object) a)) :
    runStmts C Γ [operationS x] = (do addOperation objects x; pure Γ) := by
  rw [run_one, operationS, run_method]
  unfold eval
  rcases h with h | h | h
  · have hf : schemaFuns.lookup (str "Add" ++ capitalised (str "query") ++ str "Type") = some .addQueryType := by decide +kernel
    rw [h]
    simp only [hs, hf, evalArgs, eval_var hn, pure_bind, bind_assoc, SchemaFun.apply, addOperation, h, hm, if_true]
  · have hf : schemaFuns.lookup (str "Add" ++ capitalised (str "mutation") ++ str "Type") = some .addMutationType := by decide +kernel
    have e1 : str "mutation" ≠ str "query" := by decide
    rw [h]
    simp only [hs, hf, evalArgs, eval_var hn, pure_bind, bind_assoc, SchemaFun.apply, addOperation, h, hm, if_true, e1, if_false]
  · have hf : schemaFuns.lookup (str "Add" ++ capitalised (str "subscription") ++ str "Type") = some .addSubscriptionType := by
      decide +kernel
    have e1 : str "subscription" ≠ str "query" := by decide
    have e2 : str "subscription" ≠ str "mutation" := by decide
    rw [h]
    simp only [hs, hf, evalArgs, eval_var hn, pure_bind, bind_assoc, SchemaFun.apply, addOperation, h, hm, if_true, e1, e2, if_false]

end Verif.GenText
