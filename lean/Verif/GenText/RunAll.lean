import Verif.GenText.Runs
import Mathlib.Data.List.Nodup

/-!
# Running the whole of `AddTypesToSchema`
-/
namespace Verif.GenText
open Verif.Value Verif.Gen Verif.Modifiers Verif.Text Verif.Cpp
open Verif.Schema.Wrap (Kind Addr)

variable {C : Context} {Γ : Vars}

/-! ## Enums -/

theorem enumsOf_map (ts : List EnumType) : enumsOf (ts.map enumDecl) = ts.map fun t => (cpp t.type, t.values.map (·.value)) := by
  induction ts with
  | nil => rfl
  | cons t ts ih => simp [enumDecl, enumsOf, ih]

theorem arraysOf_map (ts : List EnumType) :
    arraysOf (ts.map arrayDecl) = ts.map fun t => (str "s_names" ++ cpp t.type, t.values.map (·.value)) := by
  induction ts with
  | nil => rfl
  | cons t ts ih => simp [arrayDecl, arraysOf, ih]

theorem enumerator_inj {a b c d : Str} (h : C.enumerator a b = C.enumerator c d) : a = c ∧ b = d := by
  have h2 := congrArg Path.tail h
  simp only [Context.enumerator, List.append_cancel_left_eq, List.cons.injEq, and_true] at h2
  exact h2

theorem position_ok {ts : List EnumType} (hC : C.enums = ts.map fun t => (cpp t.type, t.values.map (·.value)))
    (hd : (ts.map fun t => cpp t.type).Nodup) {t : EnumType} (ht : t ∈ ts) {v : Str} (hv : v ∈ t.values.map (·.value)) :
    ∃ i, C.position (C.enumerator (cpp t.type) v) = pure i ∧ (t.values.map (·.value))[i]? = some v := by
  have key : ∀ us : List EnumType, (us.map fun t => cpp t.type).Nodup → t ∈ us →
      ∃ i, ((us.map fun t => (cpp t.type, t.values.map (·.value))).findSome? fun e =>
        (e.2.findIdx? fun w => C.enumerator e.1 w == C.enumerator (cpp t.type) v)) = some i ∧ (t.values.map (·.value))[i]? = some v := by
    intro us hn hm
    induction us with
    | nil => cases hm
    | cons u us ih =>
      rcases List.mem_cons.1 hm with rfl | hm'
      · have : ∃ i, (t.values.map (·.value)).findIdx? (fun w => C.enumerator (cpp t.type) w == C.enumerator (cpp t.type) v) = some i := by
          rw [← Option.isSome_iff_exists, List.findIdx?_isSome, List.any_eq_true]
          exact ⟨v, hv, by simp⟩
        obtain ⟨i, hi⟩ := this
        refine ⟨i, by simp only [List.map_cons, List.findSome?_cons, hi], ?_⟩
        obtain ⟨hlt, hp, -⟩ := List.findIdx?_eq_some_iff_getElem.1 hi
        rw [List.getElem?_eq_getElem hlt]
        rw [beq_iff_eq] at hp
        exact congrArg some (enumerator_inj hp).2
      · simp only [List.map_cons, List.nodup_cons] at hn
        obtain ⟨i, h1, h2⟩ := ih hn.2 hm'
        refine ⟨i, ?_, h2⟩
        have hne : cpp u.type ≠ cpp t.type := fun e => hn.1 (by rw [e]; exact List.mem_map_of_mem hm')
        have : (u.values.map (·.value)).findIdx? (fun w => C.enumerator (cpp u.type) w == C.enumerator (cpp t.type) v) = none := by
          rw [List.findIdx?_eq_none_iff]
          intro w _
          rw [beq_eq_false_iff_ne]
          exact fun e => hne (enumerator_inj e).1
        simp only [List.map_cons, List.findSome?_cons, this]
        exact h1
  obtain ⟨i, h1, h2⟩ := key ts hd ht
  refine ⟨i, ?_, h2⟩
  unfold Context.position
  rw [hC, h1]

theorem element_ok {ts : List EnumType} (hC : C.arrays = ts.map fun t => (str "s_names" ++ cpp t.type, t.values.map (·.value)))
    (hd : (ts.map fun t => cpp t.type).Nodup) {t : EnumType} (ht : t ∈ ts) {i : Nat} {v : Str}
    (hv : (t.values.map (·.value))[i]? = some v) :
    C.element ⟨str "service", [str "s_names" ++ cpp t.type]⟩ i = pure (.text v) := by
  have key : ∀ us : List EnumType, (us.map fun t => cpp t.type).Nodup → t ∈ us →
      ((us.map fun t => (str "s_names" ++ cpp t.type, t.values.map (·.value))).find? fun e =>
        (⟨str "service", [e.1]⟩ : Path) == ⟨str "service", [str "s_names" ++ cpp t.type]⟩) =
        some (str "s_names" ++ cpp t.type, t.values.map (·.value)) := by
    intro us hn hm
    induction us with
    | nil => cases hm
    | cons u us ih =>
      simp only [List.map_cons, List.find?_cons]
      by_cases he : cpp u.type = cpp t.type
      · rcases List.mem_cons.1 hm with rfl | hm'
        · simp
        · simp only [List.map_cons, List.nodup_cons] at hn
          exact absurd (by rw [he]; exact List.mem_map_of_mem hm') hn.1
      · have hne : ((⟨str "service", [str "s_names" ++ cpp u.type]⟩ : Path) == ⟨str "service", [str "s_names" ++ cpp t.type]⟩) = false := by
          rw [beq_eq_false_iff_ne]
          intro e
          have h2 := congrArg Path.tail e
          simp only [List.cons.injEq, List.append_cancel_left_eq, and_true] at h2
          exact he h2
        rw [hne]
        rcases List.mem_cons.1 hm with rfl | hm'
        · exact absurd rfl he
        · simp only [List.map_cons, List.nodup_cons] at hn
          exact ih hn.2 hm'
  unfold Context.element
  rw [hC, key ts hd ht]
  simp only [hv]

/-- The value of an enum in the code. -/
def enumVal (v : TypeSystem.EnumValue) : Val := .list [.text v.name, .text v.description, .optional v.deprecationReason]

theorem run_enum {ts : List EnumType} (hE : C.enums = ts.map fun t => (cpp t.type, t.values.map (·.value)))
    (hA : C.arrays = ts.map fun t => (str "s_names" ++ cpp t.type, t.values.map (·.value)))
    (hd : (ts.map fun t => cpp t.type).Nodup) {t : EnumType} (ht : t ∈ ts) (hv : ∀ v ∈ t.values, cpp v.value = v.value)
    {m : TypeMap} {a : Addr} (hm : m.lookup t.type = some a) (hn : Γ.lookup (typeVar t.type) = some (.type (some .enum) a)) :
    runStmts C Γ (enumS C.schemaNamespace t) = (do enumDetails m t; pure Γ) := by
  have he : eval C Γ (.braces (t.values.map (enumValueE C.schemaNamespace t))) =
      pure (.list ((t.values.map fun v =>
        ({ name := v.value, description := v.description, deprecationReason := v.deprecationReason } : TypeSystem.EnumValue)).map enumVal)) := by
    unfold eval
    rw [eval_all (g := fun v : EnumValueType => (pure v : Build EnumValueType))
      (inj := fun v => enumVal { name := v.value, description := v.description, deprecationReason := v.deprecationReason })]
    · rw [show (t.values.mapM fun v => (pure v : Build EnumValueType)) = pure t.values by
        induction t.values with
        | nil => simp
        | cons v vs ih => simp [ih]]
      simp [Function.comp_def, enumVal]
    · intro v hv'
      obtain ⟨i, h1, h2⟩ := position_ok (C := C) hE hd ht (v := v.value) (List.mem_map_of_mem hv')
      have h3 := element_ok (C := C) hA hd ht h2
      rw [← hv v hv'] at h1
      have h1' : C.position (enumeratorP C.schemaNamespace (cpp t.type) (cpp v.value)) = pure i := h1
      unfold enumValueE eval
      simp only [evalList, eval_text, eval_deprecation, pure_bind, bind_assoc]
      unfold eval
      have h4 : eval C Γ (Expr.staticCast (word (str "size_t")) (Expr.name (enumeratorP C.schemaNamespace (cpp t.type) (cpp v.value)))) =
          pure (.number i) := by
        unfold eval
        simp only [if_true, h1', pure_bind]
      simp only [h4, pure_bind, h3]
      rfl
  have := run_onType (C := C) (Γ := Γ) (n := t.type) (m := "AddEnumValues") (f := .addEnumValues) (k := .enum) (a := a)
    (by decide +kernel) hn (xs := t.values) (e := enumValueE C.schemaNamespace t)
    (d := call (.addEnumValues a (t.values.map fun v =>
        { name := v.value, description := v.description, deprecationReason := v.deprecationReason })))
    he (by simp only [pure_bind, TypeFun.apply, back_all (inj := enumVal) (f := Val.asEnumValue) (fun _ => rfl)])
  rw [enumS, this, enumDetails, hm]

/-! ## Variables -/

/-- The variables of declared types. -/
def vars (k : Kind) (m : TypeMap) : Vars := m.map fun e => (typeVar e.1, .type (some k) e.2)

theorem lookup_none {β : Type} {m : List (Str × β)} {n : Str} (h : n ∉ m.map (·.1)) : m.lookup n = none := by
  induction m with
  | nil => rfl
  | cons e m ih =>
    simp only [List.map_cons, List.mem_cons, not_or] at h
    have hb : (n == e.1) = false := by simpa using h.1
    rw [List.lookup_cons, ih h.2, hb]

theorem lookup_append {β : Type} {m k : List (Str × β)} {n : Str} (h : n ∉ m.map (·.1)) : (m ++ k).lookup n = k.lookup n := by
  rw [List.lookup_append, lookup_none h, Option.none_or]

theorem vars_keys (k : Kind) (m : TypeMap) : (vars k m).map (·.1) = (m.map (·.1)).map typeVar := by simp [vars]

theorem lookup_vars {k : Kind} {m : TypeMap} (hd : ((m.map (·.1)).map typeVar).Nodup) {n : Str} (hn : n ∈ m.map (·.1)) :
    ∃ a, m.lookup n = some a ∧ (vars k m).lookup (typeVar n) = some (.type (some k) a) := by
  induction m with
  | nil => cases hn
  | cons e m ih =>
    simp only [List.map_cons, List.nodup_cons] at hd
    by_cases he : n = e.1
    · refine ⟨e.2, ?_, ?_⟩
      · rw [List.lookup_cons, he, beq_self_eq_true]
      · simp only [vars, List.map_cons, List.lookup_cons, he, beq_self_eq_true]
    · have hm : n ∈ m.map (·.1) := by
        simp only [List.map_cons, List.mem_cons] at hn
        exact hn.resolve_left he
      obtain ⟨a, h1, h2⟩ := ih hd.2 hm
      have hne : typeVar n ≠ typeVar e.1 := fun h => hd.1 (by rw [← h]; exact List.mem_map_of_mem hm)
      refine ⟨a, ?_, ?_⟩
      · have hb : (n == e.1) = false := by simpa using he
        rw [List.lookup_cons, hb, h1]
      · simp only [vars, List.map_cons, List.lookup_cons]
        have : (typeVar n == typeVar e.1) = false := by simpa using hne
        simp only [this]
        exact h2

/-! ## Declarations -/

theorem make_lookup {k : Kind} (hk : k = .enum ∨ k = .inputObject ∨ k = .union ∨ k = .interface ∨ k = .object) :
    funs.lookup ⟨str "schema", [className k, str "Make"]⟩ = some (.make k) := by
  rcases hk with rfl | rfl | rfl | rfl | rfl <;> decide +kernel

theorem run_declare {k : Kind} (hk : k = .enum ∨ k = .inputObject ∨ k = .union ∨ k = .interface ∨ k = .object)
    (hs : Γ.lookup schemaVar = some .schema) {t : Str × Str} {m : TypeMap} (hm : m.lookup t.1 = none)
    (hn : (Γ ++ vars k m).lookup (typeVar t.1) = none) :
    runStmts C (Γ ++ vars k m) (declareS k t) = (do let m' ← declareType k m t; pure (Γ ++ vars k m')) := by
  have h1 : schemaFuns.lookup (str "AddType") = some .addType := by decide +kernel
  have hs' : (Γ ++ vars k m).lookup schemaVar = some .schema := by rw [List.lookup_append, hs]; rfl
  simp only [declareS, runStmts, runStmt]
  have e1 : eval C (Γ ++ vars k m) (.call ⟨str "schema", [className k, str "Make"]⟩ [.text t.1 true, .text t.2 (decide (k ≠ .object))]) =
      (do let a ← makeType k t.1 t.2; pure (.type (some k) a)) := by
    unfold eval
    simp only [evalArgs, eval_text, pure_bind, make_lookup hk, Fun.apply]
  rw [e1]
  simp only [bind_assoc, pure_bind, hn, declareType, TypeMap.emplace, hm]
  congr 1
  funext a
  have hs2 : ((Γ ++ vars k m) ++ [(typeVar t.1, Val.type (some k) a)]).lookup schemaVar = some .schema := by
    rw [List.lookup_append, hs']; rfl
  have hv : ((Γ ++ vars k m) ++ [(typeVar t.1, Val.type (some k) a)]).lookup (typeVar t.1) = some (.type (some k) a) := by
    rw [List.lookup_append, hn]; simp [List.lookup_cons]
  have hl : (m ++ [(t.1, a)]).lookup t.1 = some a := by rw [List.lookup_append, hm]; simp [List.lookup_cons]
  have e2 : eval C ((Γ ++ vars k m) ++ [(typeVar t.1, Val.type (some k) a)])
      (.method schemaVar (str "AddType") [.text t.1 true, .name (word (typeVar t.1))]) = (do call (.addType t.1 a); pure .void) := by
    unfold eval
    simp only [evalArgs, eval_text, eval_var hv, pure_bind, hs2, h1, SchemaFun.apply]
  rw [e2]
  simp [hl, vars]

theorem run_declares {k : Kind} (hk : k = .enum ∨ k = .inputObject ∨ k = .union ∨ k = .interface ∨ k = .object)
    (hs : Γ.lookup schemaVar = some .schema) (ts : List (Str × Str)) (m : TypeMap)
    (hd : ((m.map (·.1) ++ ts.map (·.1)).map typeVar).Nodup) (hΓ : ∀ n ∈ ts.map (·.1), typeVar n ∉ Γ.map (·.1)) :
    runStmts C (Γ ++ vars k m) (ts.flatMap (declareS k)) =
      (do let m' ← ts.foldlM (declareType k) m; pure (Γ ++ vars k m')) := by
  induction ts generalizing m with
  | nil => simp [runStmts]
  | cons t ts ih =>
    have hnm : typeVar t.1 ∉ (m.map (·.1)).map typeVar := by
      simp only [List.map_append, List.map_cons, List.nodup_append, List.nodup_cons] at hd
      intro h
      exact hd.2.2 _ h _ (by simp) rfl
    have hm : m.lookup t.1 = none := lookup_none fun h => hnm (List.mem_map_of_mem h)
    have hn : (Γ ++ vars k m).lookup (typeVar t.1) = none := by
      refine lookup_none ?_
      rw [List.map_append, vars_keys, List.mem_append, not_or]
      exact ⟨hΓ t.1 (by simp), hnm⟩
    rw [List.flatMap_cons, run_append, run_declare hk hs hm hn]
    simp only [List.foldlM_cons, bind_assoc, pure_bind, declareType, TypeMap.emplace, hm]
    congr 1
    funext a
    congr 1
    funext _
    refine ih (m ++ [(t.1, a)]) ?_ fun n hn => hΓ n (by simp only [List.map_cons, List.mem_cons]; exact .inr hn)
    simpa using hd

theorem declares_keys {k : Kind} {β : Type} (ts : List (Str × Str)) (m : TypeMap) (hd : (m.map (·.1) ++ ts.map (·.1)).Nodup)
    {f g : TypeMap → Build β} (h : ∀ m', m'.map (·.1) = m.map (·.1) ++ ts.map (·.1) → f m' = g m') :
    (do let m' ← ts.foldlM (declareType k) m; f m') = (do let m' ← ts.foldlM (declareType k) m; g m') := by
  induction ts generalizing m with
  | nil => simp [h m (by simp)]
  | cons t ts ih =>
    have hm : m.lookup t.1 = none := lookup_none fun h => by
      simp only [List.map_cons, List.nodup_append] at hd
      exact hd.2.2 _ h _ (by simp) rfl
    simp only [List.foldlM_cons, bind_assoc, pure_bind, declareType, TypeMap.emplace, hm]
    congr 1
    funext a
    congr 1
    funext _
    refine ih (m ++ [(t.1, a)]) (by simpa using hd) fun m' hm' => h m' (by simpa using hm')

theorem run_kind {k : Kind} (hk : k = .enum ∨ k = .inputObject ∨ k = .union ∨ k = .interface ∨ k = .object)
    (hs : Γ.lookup schemaVar = some .schema) {α : Type} (name description : α → Str) (ts : List α)
    (hd : ((ts.map name).map typeVar).Nodup) (hΓ : ∀ t ∈ ts, typeVar (name t) ∉ Γ.map (·.1)) :
    runStmts C Γ (ts.flatMap fun t => declareS k (name t, description t)) =
      (do let m ← declareTypes k (ts.map fun t => (name t, description t)); pure (Γ ++ vars k m)) := by
  have := run_declares (C := C) (Γ := Γ) hk hs (ts.map fun t => (name t, description t)) [] (by simpa [Function.comp_def] using hd)
    (by simpa [Function.comp_def] using hΓ)
  simpa [vars, List.flatMap_map, declareTypes] using this

theorem kind_keys {k : Kind} {β : Type} {α : Type} (name description : α → Str) (ts : List α) (hd : (ts.map name).Nodup)
    {f g : TypeMap → Build β} (h : ∀ m, m.map (·.1) = ts.map name → f m = g m) :
    (do let m ← declareTypes k (ts.map fun t => (name t, description t)); f m) =
      (do let m ← declareTypes k (ts.map fun t => (name t, description t)); g m) :=
  declares_keys _ [] (by simpa [Function.comp_def] using hd) fun m' hm' => h m' (by simpa [Function.comp_def] using hm')

/-! ## The function -/

/-- The variables are forgotten. -/
def done (x : Build Vars) : Build Unit := do let _ ← x; pure ()

/-- The variables of the types of a kind are there. -/
def Found (Γ : Vars) (k : Kind) (m : TypeMap) : Prop :=
  ∀ n ∈ m.map (·.1), ∃ a, m.lookup n = some a ∧ Γ.lookup (typeVar n) = some (.type (some k) a)

theorem Found.mono {k : Kind} {m : TypeMap} (h : Found Γ k m) (Δ : Vars) : Found (Γ ++ Δ) k m := by
  intro n hn
  obtain ⟨a, h1, h2⟩ := h n hn
  exact ⟨a, h1, by rw [List.lookup_append, h2]; rfl⟩

theorem schema_mono (h : Γ.lookup schemaVar = some .schema) (Δ : Vars) : (Γ ++ Δ).lookup schemaVar = some .schema := by
  rw [List.lookup_append, h]; rfl

theorem typeVar_nodup {ns : List Str} (h : (ns.map typeVar).Nodup) : ns.Nodup := List.Nodup.of_map typeVar h

/-- One kind of types after the other. -/
theorem step_kind {k : Kind} (hk : k = .enum ∨ k = .inputObject ∨ k = .union ∨ k = .interface ∨ k = .object)
    (hs : Γ.lookup schemaVar = some .schema) {α : Type} (name description : α → Str) (ts : List α) {rest : List Str}
    (hN : (Γ.map (·.1) ++ ((ts.map name).map typeVar ++ rest)).Nodup) {s : List Cpp.Stmt} {f : TypeMap → Build Unit}
    (h : ∀ m, m.map (·.1) = ts.map name → ((Γ ++ vars k m).map (·.1) ++ rest).Nodup →
      (Γ ++ vars k m).lookup schemaVar = some .schema → Found (Γ ++ vars k m) k m → done (runStmts C (Γ ++ vars k m) s) = f m) :
    done (runStmts C Γ ((ts.flatMap fun t => declareS k (name t, description t)) ++ s)) =
      (do let m ← declareTypes k (ts.map fun t => (name t, description t)); f m) := by
  have h1 : ((ts.map name).map typeVar).Nodup := (List.nodup_append.1 (List.nodup_append.1 hN).2.1).1
  have h2 : ∀ x ∈ (ts.map name).map typeVar, x ∉ Γ.map (·.1) := by
    intro x hx hx'
    exact (List.nodup_append.1 hN).2.2 x hx' x (List.mem_append_left _ hx) rfl
  rw [run_append, run_kind hk hs name description ts h1 fun t ht => h2 _ (List.mem_map_of_mem (List.mem_map_of_mem ht))]
  simp only [done, bind_assoc, pure_bind]
  refine kind_keys name description ts (typeVar_nodup h1) fun m hm => ?_
  refine h m hm ?_ (schema_mono hs _) ?_
  · rw [List.map_append, vars_keys, hm, List.append_assoc]; exact hN
  · intro n hn
    obtain ⟨a, k1, k2⟩ := lookup_vars (k := k) (m := m) (by rw [hm]; exact h1) hn
    refine ⟨a, k1, ?_⟩
    rw [lookup_append (h2 _ (by rw [← hm]; exact List.mem_map_of_mem hn))]
    exact k2

/-- Statements which declare nothing. -/
theorem step_all {α : Type} {f : α → List Cpp.Stmt} {g : α → Build Unit} {xs : List α} {s : List Cpp.Stmt}
    (h : ∀ x ∈ xs, runStmts C Γ (f x) = (do g x; pure Γ)) :
    done (runStmts C Γ (xs.flatMap f ++ s)) = (do xs.forM g; done (runStmts C Γ s)) := by
  rw [run_append, run_forM h]
  simp only [done, bind_assoc, pure_bind]

/-- The context of the code: the enums and the arrays. -/
structure Provides (C : Context) (l : Loader) : Prop where
  enums : C.enums = l.enumTypes.map fun t => (cpp t.type, t.values.map (·.value))
  arrays : C.arrays = l.enumTypes.map fun t => (str "s_names" ++ cpp t.type, t.values.map (·.value))

theorem cpp_typeVar (ns : List Str) : ns.map typeVar = (ns.map cpp).map (str "type" ++ ·) := by
  rw [List.map_map]; rfl

theorem names_nodup {l : Loader} (h : Writable l) :
    ([schemaVar] ++ ((l.enumTypes.map (fun t : EnumType => t.type)).map typeVar ++ ((l.inputTypes.map (fun t : InputType => t.type)).map typeVar ++
      ((l.unionTypes.map (fun t : UnionType => t.type)).map typeVar ++ ((l.interfaceTypes.map (fun t : InterfaceType => t.type)).map typeVar ++
      ((l.objectTypes.map (fun t : ObjectType => t.type)).map typeVar ++ [])))))).Nodup := by
  have e : (l.enumTypes.map (fun t : EnumType => t.type)).map typeVar ++ ((l.inputTypes.map (fun t : InputType => t.type)).map typeVar ++
      ((l.unionTypes.map (fun t : UnionType => t.type)).map typeVar ++ ((l.interfaceTypes.map (fun t : InterfaceType => t.type)).map typeVar ++
      ((l.objectTypes.map (fun t : ObjectType => t.type)).map typeVar ++ [])))) = (variableTypes l).map typeVar := by
    simp [variableTypes]
  rw [e, List.singleton_append, List.nodup_cons]
  constructor
  · intro hm
    obtain ⟨n, -, hn⟩ := List.mem_map.1 hm
    have := congrArg List.head? hn
    revert this
    simp [typeVar, schemaVar, str]
  · rw [cpp_typeVar]
    exact h.distinct.map fun a b hab => List.append_cancel_left hab

theorem enum_cpp_nodup {l : Loader} (h : Writable l) : (l.enumTypes.map fun t => cpp t.type).Nodup := by
  have := h.distinct
  simp only [variableTypes, List.map_append, List.map_map, List.append_assoc] at this
  exact (List.nodup_append.1 this).1

theorem found_interface {m : TypeMap} (hf : Found Γ .interface m) {n : Str} (hn : n ∈ m.map (·.1)) :
    eval C Γ (interfaceE false n) = (do let a ← findInterface m n; pure (.type (some .interface) a)) := by
  obtain ⟨a, h1, h2⟩ := hf n hn
  simp [interfaceE, eval_var h2, findInterface, h1]

theorem mem_keys {α : Type} {m : TypeMap} {name : α → Str} {ts : List α} (h : m.map (·.1) = ts.map name) {t : α} (ht : t ∈ ts) :
    name t ∈ m.map (·.1) := by rw [h]; exact List.mem_map_of_mem ht

/-- `addTypes` with other steps for the objects. -/
def addTypesWith (details : TypeMap → TypeMap → ObjectType → Build Unit) (l : Loader) : Build Unit := do
  l.scalarTypes.forM addScalar
  let enums ← declareTypes .enum (l.enumTypes.map fun t => (t.type, t.description))
  let inputs ← declareTypes .inputObject (l.inputTypes.map fun t => (t.type, t.description))
  let unions ← declareTypes .union (l.unionTypes.map fun t => (t.type, t.description))
  let interfaces ← declareTypes .interface (l.interfaceTypes.map fun t => (t.type, t.description))
  let objects ← declareTypes .object (l.objectTypes.map fun t => (t.type, t.description))
  l.enumTypes.forM (enumDetails enums)
  l.inputTypes.forM (inputDetails inputs)
  l.unionTypes.forM (unionDetails unions)
  l.interfaceTypes.forM (interfaceDetails interfaces)
  l.objectTypes.forM (details objects interfaces)
  l.directives.forM addDirective
  l.operationTypes.forM (addOperation objects)

theorem run_body {l : Loader} (hC : Provides C l) (h : Writable l) {separate : Bool}
    {details : TypeMap → TypeMap → ObjectType → Build Unit}
    (hd : ∀ t ∈ l.objectTypes, ∀ (Γ : Vars) (m interfaces : TypeMap) (a : Addr), Γ.lookup schemaVar = some .schema →
      Found Γ .interface interfaces → (∀ n ∈ t.interfaces, n ∈ interfaces.map (·.1)) → m.lookup t.type = some a →
      Γ.lookup (typeVar t.type) = some (.type (some .object) a) →
      runStmts C Γ (objectStmts separate t) = (do details m interfaces t; pure Γ)) :
    done (runStmts C [(schemaVar, .schema)] (body C.schemaNamespace separate l)) = addTypesWith details l := by
  have hs0 : ([(schemaVar, Val.schema)] : Vars).lookup schemaVar = some .schema := by simp [List.lookup]
  have eb : body C.schemaNamespace separate l = l.scalarTypes.flatMap (fun t => [scalarS t]) ++
      (l.enumTypes.flatMap (fun t => declareS .enum (t.type, t.description)) ++
      (l.inputTypes.flatMap (fun t => declareS .inputObject (t.type, t.description)) ++
      (l.unionTypes.flatMap (fun t => declareS .union (t.type, t.description)) ++
      (l.interfaceTypes.flatMap (fun t => declareS .interface (t.type, t.description)) ++
      (l.objectTypes.flatMap (fun t => declareS .object (t.type, t.description)) ++
      (l.enumTypes.flatMap (enumS C.schemaNamespace) ++ (l.inputTypes.flatMap inputS ++ (l.unionTypes.flatMap unionS ++
      (l.interfaceTypes.flatMap (fun t => fieldsS t.type t.fields) ++ (l.objectTypes.flatMap (objectStmts separate) ++
      (l.directives.flatMap (fun d => [directiveS d]) ++ (l.operationTypes.flatMap (fun x => [operationS x]) ++ [])))))))))))) := by
    have e1 : objectStmts false = objectS false := rfl
    have e2 : objectStmts true = fun t => [objectCallS t] := rfl
    cases separate <;> simp [body, declarations, GenText.details, flatMap_single, e1, e2]
  rw [eb, step_all fun t _ => run_scalar hs0 t]
  unfold addTypesWith
  congr 1
  funext _
  refine step_kind (by simp) hs0 (fun t : EnumType => t.type) (fun t => t.description) l.enumTypes (names_nodup h)
    fun m1 k1 n1 s1 f1 => ?_
  refine step_kind (by simp) s1 (fun t : InputType => t.type) (fun t => t.description) l.inputTypes n1 fun m2 k2 n2 s2 f2 => ?_
  refine step_kind (by simp) s2 (fun t : UnionType => t.type) (fun t => t.description) l.unionTypes n2 fun m3 k3 n3 s3 f3 => ?_
  refine step_kind (by simp) s3 (fun t : InterfaceType => t.type) (fun t => t.description) l.interfaceTypes n3
    fun m4 k4 n4 s4 f4 => ?_
  refine step_kind (by simp) s4 (fun t : ObjectType => t.type) (fun t => t.description) l.objectTypes n4 fun m5 k5 n5 s5 f5 => ?_
  have g1 := (((f1.mono (vars .inputObject m2)).mono (vars .union m3)).mono (vars .interface m4)).mono (vars .object m5)
  have g2 := ((f2.mono (vars .union m3)).mono (vars .interface m4)).mono (vars .object m5)
  have g3 := (f3.mono (vars .interface m4)).mono (vars .object m5)
  have g4 := f4.mono (vars .object m5)
  generalize (((([(schemaVar, Val.schema)] ++ vars .enum m1) ++ vars .inputObject m2) ++ vars .union m3) ++ vars .interface m4) ++
    vars .object m5 = Γ at *
  rw [step_all (g := enumDetails m1) fun t ht => ?_, step_all (g := inputDetails m2) fun t ht => ?_,
    step_all (g := unionDetails m3) fun t ht => ?_, step_all (g := interfaceDetails m4) fun t ht => ?_,
    step_all (g := details m5 m4) fun t ht => ?_, step_all (g := addDirective) fun d hd => ?_,
    step_all (g := addOperation m5) fun x hx => ?_]
  · simp [done, run_nil]
  · obtain ⟨h1, h2⟩ := h.operations x hx
    obtain ⟨a, e1, e2⟩ := f5 x.type (by rw [k5]; exact h2)
    exact run_operation s5 h1 e1 e2
  · exact run_directive s5 (h.directives d hd).2.2.2
  · obtain ⟨a, e1, e2⟩ := f5 _ (mem_keys k5 ht)
    exact hd t ht Γ m5 m4 a s5 g4 (by rw [k4]; exact (h.objects t ht).2.2) e1 e2
  · obtain ⟨a, e1, e2⟩ := g4 _ (mem_keys k4 ht)
    exact run_interfaceFields s5 e1 e2
  · obtain ⟨a, e1, e2⟩ := g3 _ (mem_keys k3 ht)
    exact run_union s5 e1 e2
  · obtain ⟨a, e1, e2⟩ := g2 _ (mem_keys k2 ht)
    exact run_input s5 e1 e2
  · obtain ⟨a, e1, e2⟩ := g1 _ (mem_keys k1 ht)
    exact run_enum hC.enums hC.arrays (enum_cpp_nodup h) ht (fun v hv => ((h.enums t ht).2.2.2 v hv).same) e1 e2

/-- All in one function. -/
theorem run_together {l : Loader} (hC : Provides C l) (h : Writable l) :
    done (runStmts C [(schemaVar, .schema)] (body C.schemaNamespace false l)) = addTypes l :=
  run_body hC h (details := objectDetails) fun _ _ _ _ _ _ hs hf hi e1 e2 =>
    run_object hs (fun n hn => found_interface hf (hi n hn)) e1 e2

/-- The interfaces of an object, found by their names. -/
def lookupInterfaces (m : TypeMap) (t : ObjectType) : Build Unit :=
  if t.interfaces.isEmpty then pure ()
  else do
    let is ← t.interfaces.mapM Gen.lookupType
    match m.lookup t.type with
    | some a => call (.addInterfaces a is)
    | none => throw .undefined

def lookupDetails (m _interfaces : TypeMap) (t : ObjectType) : Build Unit := do
  lookupInterfaces m t
  objectFields m t

theorem run_lookupInterfaces (hs : Γ.lookup schemaVar = some .schema) {t : ObjectType} {m : TypeMap} {a : Addr}
    (hm : m.lookup t.type = some a) (hn : Γ.lookup (typeVar t.type) = some (.type (some .object) a)) :
    runStmts C Γ (interfacesS true t) = (do lookupInterfaces m t; pure Γ) := by
  have hi : ∀ n ∈ t.interfaces, eval C Γ (interfaceE true n) = (do let a ← Gen.lookupType n; pure (.type (some .interface) a)) := by
    intro n _
    unfold interfaceE
    rw [if_pos rfl]
    unfold eval
    rw [eval_lookup hs]
    simp
  have he : eval C Γ (.braces (t.interfaces.map (interfaceE true))) =
      (do let vs ← t.interfaces.mapM Gen.lookupType; pure (.list (vs.map (.type (some .interface))))) := by
    unfold eval
    simp only [eval_all (inj := Val.type (some .interface)) hi, bind_assoc, pure_bind]
  have := run_onType (C := C) (Γ := Γ) (n := t.type) (m := "AddInterfaces") (f := .addInterfaces) (k := .object) (a := a)
    (by decide +kernel) hn (xs := t.interfaces)
    (d := do let is ← t.interfaces.mapM Gen.lookupType; call (.addInterfaces a is))
    he (by simp only [bind_assoc, pure_bind, TypeFun.apply, back_interfaces])
  rw [interfacesS, this, lookupInterfaces, hm]

theorem run_lookupObject (hs : Γ.lookup schemaVar = some .schema) {t : ObjectType} {m i : TypeMap} {a : Addr}
    (hm : m.lookup t.type = some a) (hn : Γ.lookup (typeVar t.type) = some (.type (some .object) a)) :
    runStmts C Γ (objectS true t) = (do lookupDetails m i t; pure Γ) := by
  rw [objectS, run_append, run_lookupInterfaces hs hm hn]
  simp only [bind_assoc, pure_bind, run_objectFields hs hm hn, lookupDetails]

def objectParam (t : ObjectType) : Param := ⟨false, path "schema" ["ObjectType"], typeVar t.type⟩

theorem schema_ne (n : Str) : typeVar n ≠ schemaVar := by
  intro h
  have := congrArg List.head? h
  revert this
  simp [typeVar, schemaVar, str]

/-- The function of an object. -/
theorem run_objectFunction {t : ObjectType} {m i : TypeMap} {a : Addr} (hm : m.lookup t.type = some a) :
    runFunction C [objectParam t, schemaParam] (objectS true t) [.type (some .object) a, .schema] = lookupDetails m i t := by
  have hc : ([Val.type (some .object) a, Val.schema].length = [objectParam t, schemaParam].length ∧
      ([objectParam t, schemaParam].map (·.name)).Nodup ∧
      (([Val.type (some .object) a, Val.schema].zip [objectParam t, schemaParam]).all fun e => e.1.fits e.2) = true) := by
    refine ⟨rfl, ?_, ?_⟩
    · simpa [objectParam, schemaParam, schemaVar] using schema_ne t.type
    · simp [objectParam, schemaParam, Val.fits]
  rw [runFunction, if_pos hc]
  have e : ([objectParam t, schemaParam].map (·.name)).zip [Val.type (some .object) a, Val.schema] =
      [(typeVar t.type, .type (some .object) a), (schemaVar, .schema)] := rfl
  rw [e, run_lookupObject (i := i) ?_ hm ?_]
  · simp
  · have hb : (schemaVar == typeVar t.type) = false := by simpa using (schema_ne t.type).symm
    rw [List.lookup_cons, hb]
    simp
  · rw [List.lookup_cons, beq_self_eq_true]

/-- One function for each object. -/
def Linked (C : Context) (l : Loader) : Prop :=
  ∀ t ∈ l.objectTypes, ∃ C', C.functions.lookup (detailsName t) = some (runFunction C' [objectParam t, schemaParam] (objectS true t))

theorem run_separate {l : Loader} (hC : Provides C l) (h : Writable l) (hl : Linked C l) :
    done (runStmts C [(schemaVar, .schema)] (body C.schemaNamespace true l)) = addTypesWith lookupDetails l := by
  refine run_body hC h (details := lookupDetails) fun t ht Γ m i a hs _ _ e1 e2 => ?_
  obtain ⟨C', hf⟩ := hl t ht
  simp only [objectStmts, if_true, objectCallS, run_one, word, runStmt, evalArgs]
  have v1 := eval_var (C := C) (Γ := Γ) hs
  have v2 := eval_var (C := C) (Γ := Γ) e2
  simp only [word] at v1 v2
  simp only [v1, v2, pure_bind, hf, run_objectFunction (C := C') (i := i) e1]

theorem run_call {separate : Bool} {l : Loader} :
    runFunction C [schemaParam] (body C.schemaNamespace separate l) [.schema] =
      done (runStmts C [(schemaVar, .schema)] (body C.schemaNamespace separate l)) := by
  have hc : ([Val.schema].length = [schemaParam].length ∧ ([schemaParam].map (·.name)).Nodup ∧
      (([Val.schema].zip [schemaParam]).all fun e => e.1.fits e.2) = true) := by
    refine ⟨rfl, by simp, by decide⟩
  rw [runFunction, if_pos hc]
  rfl

end Verif.GenText
