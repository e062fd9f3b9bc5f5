import Verif.GenText.Separate
import Verif.Cpp.Unique

/-!
# C71: the generated code for the schema
-/
namespace Verif.GenText
open Verif.Value Verif.Gen Verif.Text Verif.Cpp
open Verif.TypeSystem (Op Built)
open Verif.Schema.Wrap (Kind Addr)

/-- What is written for a schema. -/
def program (o : Options) (l : Loader) : Program :=
  { enums := enumClasses l
    arrays := namesArrays l
    functions := objectFunctions o l
    main := functionText o l }

/-! ## The same enums and objects -/

theorem enum_bare (t : EnumType) :
    enumClass { t with description := [], values := t.values.map fun v => { v with description := [] } } = enumClass t ∧
    namesArray { t with description := [], values := t.values.map fun v => { v with description := [] } } = namesArray t := by
  constructor <;> simp [enumClass, namesArray, Function.comp_def]

theorem bare_enums (l : Loader) :
    enumClasses (withoutDescriptions l) = enumClasses l ∧ namesArrays (withoutDescriptions l) = namesArrays l := by
  simp only [enumClasses, namesArrays, withoutDescriptions, List.flatMap_map]
  exact ⟨congrArg (fun f => l.enumTypes.flatMap f) (funext fun t => (enum_bare t).1),
    congrArg (fun f => l.enumTypes.flatMap f) (funext fun t => (enum_bare t).2)⟩

theorem shown_enums (o : Options) (l : Loader) :
    enumClasses (shown o l) = enumClasses l ∧ namesArrays (shown o l) = namesArrays l := by
  obtain ⟨a, b, c, d⟩ := o
  cases a <;> cases c
  · exact ⟨rfl, rfl⟩
  · exact ⟨rfl, rfl⟩
  · exact bare_enums l
  · exact bare_enums _

theorem objectFunction_bare {o : Options} (h : o.noIntrospection = true) (t : ObjectType) :
    objectFunctionText o t = objectFunctionText { o with noIntrospection := false } (bareObject t) := by
  simp only [objectFunctionText, introspection_shown h]
  rfl

theorem shown_objects (o : Options) (l : Loader) :
    objectFunctions o l = objectFunctions { o with noIntrospection := false } (shown o l) := by
  obtain ⟨a, b, c, d⟩ := o
  cases b with
  | false => rfl
  | true =>
    cases a with
    | false => cases c <;> rfl
    | true =>
      have h := fun c => funext (objectFunction_bare (o := { noIntrospection := true, separateFiles := true, isIntrospection := c, schemaNamespace := d }) rfl)
      unfold objectFunctions
      simp only [if_true, h]
      cases c <;> simp only [shown, withoutDescriptions, List.flatMap_map, if_true, Bool.false_eq_true, if_false] <;> rfl

/-! ## Reading -/

theorem reads_enums {l : Loader} (h : Writable l) : Reads (enumClasses l) (l.enumTypes.map enumDecl) := by
  unfold Reads
  rw [List.flatMap_map]
  exact (closed_flatMap fun t ht => closed_enumClass (h.names _ (variable_mem.1 t ht)) (h.enums t ht).2.1
    fun v hv => ⟨((h.enums t ht).2.2.2 v hv).name, ((h.enums t ht).2.2.2 v hv).word⟩).lexes

theorem reads_arrays {l : Loader} (h : Writable l) : Reads (namesArrays l) (l.enumTypes.map arrayDecl) := by
  unfold Reads
  rw [List.flatMap_map]
  exact (closed_flatMap fun t ht => closed_array (h.names _ (variable_mem.1 t ht)) fun v hv => ((h.enums t ht).2.2.2 v hv).name).lexes

theorem reads_objects {o : Options} {l : Loader} (ho : o.noIntrospection = false) (h : Writable l) :
    Reads (objectFunctions o l) (if o.separateFiles then l.objectTypes.map objectFunction else []) := by
  unfold Reads objectFunctions
  cases hs : o.separateFiles with
  | false => exact .done
  | true =>
    simp only [if_true]
    rw [List.flatMap_map]
    exact (closed_flatMap fun t ht => closed_objectFunction ho hs h ht).lexes

/-! ## What is declared -/

theorem enumsOf_append (a b : List Decl) : enumsOf (a ++ b) = enumsOf a ++ enumsOf b := by
  induction a with
  | nil => rfl
  | cons d a ih => cases d <;> simp [enumsOf, ih]

theorem arraysOf_append (a b : List Decl) : arraysOf (a ++ b) = arraysOf a ++ arraysOf b := by
  induction a with
  | nil => rfl
  | cons d a ih => cases d <;> simp [arraysOf, ih]

theorem functionNames_append (a b : List Decl) : functionNames (a ++ b) = functionNames a ++ functionNames b := by
  induction a with
  | nil => rfl
  | cons d a ih => cases d <;> simp [functionNames, ih]

theorem arrays_enumDecl (ts : List EnumType) : arraysOf (ts.map enumDecl) = [] := by
  induction ts with
  | nil => rfl
  | cons t ts ih => simpa [arraysOf, enumDecl] using ih

theorem enums_arrayDecl (ts : List EnumType) : enumsOf (ts.map arrayDecl) = [] := by
  induction ts with
  | nil => rfl
  | cons t ts ih => simpa [enumsOf, arrayDecl] using ih

theorem enums_functions (ts : List ObjectType) : enumsOf (ts.map objectFunction) = [] := by
  induction ts with
  | nil => rfl
  | cons t ts ih => simpa [enumsOf, objectFunction] using ih

theorem arrays_functions (ts : List ObjectType) : arraysOf (ts.map objectFunction) = [] := by
  induction ts with
  | nil => rfl
  | cons t ts ih => simpa [arraysOf, objectFunction] using ih

theorem names_enumDecl (ts : List EnumType) : functionNames (ts.map enumDecl) = [] := by
  induction ts with
  | nil => rfl
  | cons t ts ih => simpa [functionNames, enumDecl] using ih

theorem names_arrayDecl (ts : List EnumType) : functionNames (ts.map arrayDecl) = [] := by
  induction ts with
  | nil => rfl
  | cons t ts ih => simpa [functionNames, arrayDecl] using ih

theorem names_functions (ts : List ObjectType) : functionNames (ts.map objectFunction) = ts.map detailsName := by
  induction ts with
  | nil => rfl
  | cons t ts ih => simpa [functionNames, objectFunction] using ih

theorem object_cpp_nodup {l : Loader} (h : Writable l) : (l.objectTypes.map fun t => cpp t.type).Nodup := by
  have := h.distinct
  simp only [variableTypes, List.map_append, List.map_map] at this
  exact (List.nodup_append.1 this).2.1

theorem details_nodup {l : Loader} (h : Writable l) : (l.objectTypes.map detailsName).Nodup := by
  have e : l.objectTypes.map detailsName = (l.objectTypes.map fun t => cpp t.type).map fun n => str "Add" ++ n ++ str "Details" := by
    rw [List.map_map]; rfl
  rw [e]
  refine (object_cpp_nodup h).map fun a b hab => ?_
  exact List.append_cancel_left (List.append_cancel_right hab)

theorem details_ne (t : ObjectType) : detailsName t ≠ str "AddTypesToSchema" := by
  intro h
  have h1 : (detailsName t).reverse.head? = some (chr 's') := by
    rw [detailsName, List.reverse_append, show (str "Details").reverse = chr 's' :: (str "Detail").reverse by decide]; rfl
  rw [h] at h1
  exact absurd h1 (by decide)

theorem accepted {l : Loader} (h : Writable l) (separate : Bool) (ps : List Param) (b : List Cpp.Stmt) :
    Accepted (l.enumTypes.map enumDecl ++ l.enumTypes.map arrayDecl ++
      (if separate then l.objectTypes.map objectFunction else []) ++ [.function (str "AddTypesToSchema") ps b]) := by
  have hn := enum_cpp_nodup h
  have he : enumsOf (if separate then l.objectTypes.map objectFunction else []) = [] := by
    cases separate
    · rfl
    · exact enums_functions _
  have ha : arraysOf (if separate then l.objectTypes.map objectFunction else []) = [] := by
    cases separate
    · rfl
    · exact arrays_functions _
  unfold Accepted
  simp only [enumsOf_append, arraysOf_append, functionNames_append, enumsOf_map, enums_arrayDecl, arrays_enumDecl, arraysOf_map,
    names_enumDecl, names_arrayDecl, he, ha]
  refine ⟨?_, ?_, ?_, ?_, ?_⟩
  · simpa [enumsOf, Function.comp_def] using hn
  · intro e he
    simp only [enumsOf, List.append_nil, List.mem_map] at he
    obtain ⟨t, ht, rfl⟩ := he
    exact (h.enums t ht).2.2.1
  · have e : (l.enumTypes.map fun t => str "s_names" ++ cpp t.type) = (l.enumTypes.map fun t => cpp t.type).map (str "s_names" ++ ·) := by
      rw [List.map_map]; rfl
    have := hn.map (f := (str "s_names" ++ ·)) fun a b hab => List.append_cancel_left hab
    rw [← e] at this
    simpa [arraysOf, Function.comp_def] using this
  · intro n a vs hm
    simp only [List.mem_append, List.mem_map, List.mem_singleton] at hm
    rcases hm with ((⟨t, -, e⟩ | ⟨t, -, e⟩) | hm) | e
    · cases e
    · cases e; simp
    · cases separate
      · cases hm
      · obtain ⟨t, -, e⟩ := List.mem_map.1 hm
        cases e
    · cases e
  · simp only [functionNames, List.nil_append]
    cases separate with
    | false => simp [functionNames]
    | true =>
      simp only [if_true, names_functions]
      refine List.nodup_append.2 ⟨details_nodup h, by simp, ?_⟩
      intro x hx y hy e
      obtain ⟨t, -, rfl⟩ := List.mem_map.1 hx
      simp only [List.mem_singleton] at hy
      exact details_ne t (e.trans hy)

/-! ## Running -/

theorem linked_functions (C : Context) (ts : List ObjectType) (hd : (ts.map detailsName).Nodup) {t : ObjectType} (ht : t ∈ ts) :
    (functionsOf C (ts.map objectFunction)).lookup (detailsName t) = some (runFunction C [objectParam t, schemaParam] (objectS true t)) := by
  induction ts with
  | nil => cases ht
  | cons u ts ih =>
    simp only [List.map_cons, List.nodup_cons] at hd
    have ef : functionsOf C ((u :: ts).map objectFunction) =
        (detailsName u, runFunction C [objectParam u, schemaParam] (objectS true u)) :: functionsOf C (ts.map objectFunction) := rfl
    rw [ef]
    rcases List.mem_cons.1 ht with rfl | ht
    · rw [List.lookup_cons, beq_self_eq_true]
    · have hb : (detailsName t == detailsName u) = false := by
        rw [beq_eq_false_iff_ne]
        exact fun e => hd.1 (by rw [← e]; exact List.mem_map_of_mem ht)
      rw [List.lookup_cons, hb]
      exact ih hd.2 ht

theorem provides (ns : Path) (l : Loader) (fs : List Decl) :
    Provides (contextOf ns (l.enumTypes.map enumDecl) (l.enumTypes.map arrayDecl) fs) l :=
  ⟨enumsOf_map _, arraysOf_map _⟩

theorem has_nil {st : BuildState} (h : Built st.ops st.schema) : Has [] st :=
  ⟨h.table.2.1, fun _ _ h => by cases h⟩

theorem keeps_addTypes (l : Loader) : Keeps [] (addTypes l) := by
  unfold addTypes
  refine .bind (.forM fun _ _ => .scalar _) fun _ => .bind (.declares (by simp)) fun _ => .bind (.declares (by simp)) fun _ =>
    .bind (.declares (by simp)) fun _ => .bind (.declares (by simp)) fun _ => .bind (.declares (by simp)) fun _ =>
    .bind (.forM fun _ _ => .enumDetails _ _) fun _ => .bind (.forM fun _ _ => .inputDetails _ _) fun _ =>
    .bind (.forM fun _ _ => .unionDetails _ _) fun _ => .bind (.forM fun _ _ => .interfaceDetails _ _) fun _ =>
    .bind (.forM fun _ _ => ?_) fun _ => .bind (.forM fun _ _ => ?_) fun _ => .forM fun _ _ => ?_
  · refine .bind ?_ fun _ => .objectFields _ _
    unfold objectInterfaces
    refine .ite (.pure _) (.bind (.mapM (fun n => ?_) _) fun _ => ?_)
    · unfold findInterface
      split
      · exact .pure _
      · exact .throw _
    · split
      · exact .call (by simp)
      · exact .throw _
  · unfold addDirective
    refine .bind (.mapM (fun n => ?_) _) fun _ => .bind (.mapM (fun _ => .input _) _) fun _ => .call (by simp)
    unfold directiveLocation
    split
    · exact .pure _
    · exact .throw _
  · unfold addOperation
    refine .ite ?_ (.ite ?_ (.ite ?_ (.pure _))) <;> split <;> first | exact .call (by simp) | exact .throw _

theorem means {o : Options} {ns : Path} (hns : IsNamespace o.schemaNamespace ns) {l : Loader} (h : Writable (shown o l)) :
    ∃ b, Means ns (program o l) b ∧ Same [] b (addTypes (shown o l)) := by
  have r1 := reads_enums h
  have r2 := reads_arrays h
  have r3 := reads_objects (o := { o with noIntrospection := false }) rfl h
  rw [(shown_enums o l).1] at r1
  rw [(shown_enums o l).2] at r2
  rw [← shown_objects] at r3
  have r4 : Reads (functionText o l) [typesFunction ns o.separateFiles (shown o l)] := by
    have := (closed_function hns h).lexes
    unfold Reads
    simpa using this
  refine ⟨_, .run r1 r2 r3 r4 (accepted h _ _ _), ?_⟩
  have hp := provides ns (shown o l) (if o.separateFiles then (shown o l).objectTypes.map objectFunction else [])
  simp only
  have hc := run_call (C := contextOf ns ((shown o l).enumTypes.map enumDecl) ((shown o l).enumTypes.map arrayDecl)
    (if o.separateFiles then (shown o l).objectTypes.map objectFunction else [])) (separate := o.separateFiles) (l := shown o l)
  have en : (contextOf ns ((shown o l).enumTypes.map enumDecl) ((shown o l).enumTypes.map arrayDecl)
    (if o.separateFiles then (shown o l).objectTypes.map objectFunction else [])).schemaNamespace = ns := rfl
  rw [en] at hc
  rw [hc]
  cases hs : o.separateFiles with
  | false =>
    rw [hs] at hp
    have := run_together hp h
    rw [show (contextOf ns ((shown o l).enumTypes.map enumDecl) ((shown o l).enumTypes.map arrayDecl)
      (if false then (shown o l).objectTypes.map objectFunction else [])).schemaNamespace = ns from rfl] at this
    rw [this]
    exact .refl _
  | true =>
    rw [hs] at hp
    have := run_separate hp h fun t ht => ⟨_, linked_functions _ _ (details_nodup h) ht⟩
    rw [show (contextOf ns ((shown o l).enumTypes.map enumDecl) ((shown o l).enumTypes.map arrayDecl)
      (if true then (shown o l).objectTypes.map objectFunction else [])).schemaNamespace = ns from rfl] at this
    rw [this]
    exact lookup_addTypes h

/-! ## C71 -/

/-- **C71.** A compiler reads the written code in one way only. -/
theorem C71_one_meaning {ns : Path} {P : Program} {b b' : Build Unit} (h : Means ns P b) (h' : Means ns P b') : b = b' := by
  obtain ⟨r1, r2, r3, r4, -⟩ := h
  obtain ⟨q1, q2, q3, q4, -⟩ := h'
  cases r1.unique q1
  cases r2.unique q2
  cases r3.unique q3
  have := r4.unique q4
  cases this
  rfl

/-- **C71.** For every schema whose names and texts can be written: a compiler accepts the code which `schemagen` writes, and
on every schema object, with any choice of addresses, `AddTypesToSchema` ends with the same calls, the same schema, or the
same failure as the direct construction from the loaded types. -/
theorem C71_code {o : Options} {ns : Path} (hns : IsNamespace o.schemaNamespace ns) {l : Loader} (h : Writable (shown o l)) :
    ∃ b, Means ns (program o l) b ∧
      ∀ alloc st, Built st.ops st.schema → b alloc st = addTypes (shown o l) alloc st := by
  obtain ⟨b, h1, h2⟩ := means hns h
  exact ⟨b, h1, fun alloc st hb => h2 alloc st (has_nil hb)⟩

/-- **C71.** The schema of the service, after the introspection types, is the schema which `clientgen` builds from the same
types (C55). -/
theorem C71_schema {o : Options} {ns : Path} (hns : IsNamespace o.schemaNamespace ns) {l : Loader} (h : Writable (shown o l))
    {b : Build Unit} (hb : Means ns (program o l) b) (alloc : List Op → Addr) :
    finished ((do addTypes Introspect.types; b : Build Unit) alloc {}) = buildSchema alloc (shown o l) := by
  obtain ⟨b', h1, h2⟩ := means hns h
  cases C71_one_meaning hb h1
  exact congrArg finished (Same.bind (.refl (addTypes Introspect.types)) (keeps_addTypes _) (fun _ => h2) alloc {} (has_nil .nil))

/-- **C71.** One file or separate files: the same. -/
theorem C71_separate_files {o : Options} {ns : Path} (hns : IsNamespace o.schemaNamespace ns) {l : Loader}
    (h : Writable (shown o l)) {b b' : Build Unit} (hb : Means ns (program { o with separateFiles := false } l) b)
    (hb' : Means ns (program { o with separateFiles := true } l) b') (alloc : List Op → Addr) (st : BuildState)
    (hs : Built st.ops st.schema) : b alloc st = b' alloc st := by
  obtain ⟨c, h1, h2⟩ := C71_code (o := { o with separateFiles := false }) (ns := ns) hns (l := l) h
  obtain ⟨c', h1', h2'⟩ := C71_code (o := { o with separateFiles := true }) (ns := ns) hns (l := l) h
  cases C71_one_meaning hb h1
  cases C71_one_meaning hb' h1'
  rw [h2 alloc st hs, h2' alloc st hs]
  rfl

end Verif.GenText
