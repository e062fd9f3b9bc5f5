import Verif.GenStub.Read
import Verif.GenClass.Claims

/-!
# C77: stubs and the class `Operations`
-/
namespace Verif.GenStub
open Verif.Value Verif.Resp Verif.Text Verif.GenText Verif.GenTypes Verif.GenClass
open Verif.Errors (Exn)
open Verif.GenCode (builtinPath valueT typePath accessPath numberE cString Library convertWith knownConversions structures inputText
  TypesOk)
open Verif.GenObject (WrittenOk ObjectOk capital resolver resultPath constructorK methods answer Event)
open Verif.Gen (InputField InterfaceType ObjectType OutputField OperationType)
open Verif.Gen.Service (Types resolverArguments)
open Verif.Cpp (Path path word)
open Verif.Cpp.Code (CType Member Accessor Ending ClassDecl ClassHeader ReadsClasses ReadsClass Constructor Method Entry Function ReadsFunctions Stub Definition
  Pair Move OperationsDecl OperationsDef ReadsStubs ReadsOperationsDecl ReadsOperationsDef)
open Verif.Modifiers (Mod Arg)

variable {print : Double → Str} {read : Str → Double} {T : Types} {is : List InterfaceType} {os : List ObjectType} {ns : Str} {q : Path}
  {introspection stubs : Bool} {query : Option Str} {t : ObjectType} {hs : List ClassHeader} {c : ClassDecl} {k : Constructor}
  {ds : List Definition} {ops : List OperationType} {d : OperationsDecl} {o : OperationsDef}

/-! ## Stubs -/

/-- The text is C++ which can be read in just one way. -/
theorem C77_code (hn : IsNamespace ns q) (h : WrittenOk print read t) (introspection stubs : Bool) :
    ∃ k ds, ReadsStubs (objectText print ns introspection stubs t) k ds ∧
      ∀ k' ds', ReadsStubs (objectText print ns introspection stubs t) k' ds' → k' = k ∧ ds' = ds :=
  ⟨_, _, reads_stubs hn h introspection stubs, fun _ _ r => r.unique (reads_stubs hn h introspection stubs)⟩

/-- The constructor and the resolvers are those which are written without stubs (`Verif.GenObject`). -/
theorem C77_resolvers (hn : IsNamespace ns q) (h : WrittenOk print read t)
    (hr : ReadsStubs (objectText print ns introspection stubs t) k ds) :
    ReadsClass (GenObject.objectText print ns introspection t) k (ds.filterMap resolver?) := by
  obtain ⟨rfl, rfl⟩ := hr.unique (reads_stubs hn h introspection stubs)
  have : (definitions (numberE print) q stubs t).filterMap resolver? = methods (numberE print) q t := by
    unfold definitions methods
    rw [List.filterMap_append]
    congr 1
    rw [List.filterMap_flatMap, List.map_eq_flatMap]
    refine List.flatMap_congr fun f hf => ?_
    cases stubs <;> rfl
  rw [this]
  exact GenObject.reads_object hn h

theorem stubs_eq (number : Double → Cpp.Code.Expr) (q : Path) (stubs : Bool) (t : ObjectType) :
    (definitions number q stubs t).filterMap stub? = if stubs then t.fields.map (stubD t) else [] := by
  unfold definitions
  rw [List.filterMap_append, List.filterMap_flatMap]
  cases stubs
  · simp [stub?]
  · simp only [if_true]
    rw [show List.filterMap stub? [Definition.resolver (GenObject.typenameM t)] = [] from rfl, List.append_nil, List.map_eq_flatMap]
    exact List.flatMap_congr fun f hf => by simp [stub?]

/-- Without stubs there are none. -/
theorem C77_none (hn : IsNamespace ns q) (h : WrittenOk print read t)
    (hr : ReadsStubs (objectText print ns introspection false t) k ds) : ds.filterMap stub? = [] := by
  obtain ⟨rfl, rfl⟩ := hr.unique (reads_stubs hn h introspection false)
  rw [stubs_eq]
  rfl

theorem definition_eq (h : ClassesOk print read T is os) (ht : t ∈ os) {f : OutputField} (hf : f ∈ t.fields) (abstract : Bool) :
    definition q (headerD abstract query is os) (classD abstract introspection t) (stubD t f) = some (fieldSignature q f) := by
  have hk := h.known t ht f hf
  have ho : inNamespaces q (objects (headerD abstract query is os)) (outPath f) = fieldPath q f := by
    rw [out_result (h.mark t ht f hf), objects_eq]
    unfold resultPath fieldPath
    cases hft : f.fieldType with
    | builtin =>
      obtain ⟨b, e⟩ := builtin_form f.type
      simp only [e, inNamespaces]
      rw [if_neg (by decide)]
    | scalar => rfl
    | enum =>
      obtain ⟨e, he, e1⟩ := hk.enum hft
      simp only [← e1, inNamespaces, word, typePath]
      rw [if_neg (enum_not_object h he)]
    | object =>
      obtain ⟨o, ho, e1⟩ := hk.object hft
      simp only [← e1, inNamespaces, word]
      rw [if_pos (List.mem_map_of_mem (f := fun t : ObjectType => cpp t.type) ho)]
    | union => rfl
    | interface => rfl
  unfold definition
  simp only [stubD]
  rw [mean_out (m := fun p => some (inNamespaces q (objects (headerD abstract query is os)) p)) (congrArg some ho), Option.bind_some]
  have : (f.arguments.map fun a => argumentType (leafPath a) a.modifiers).mapM
      (CType.mean (inClass q (headerD abstract query is os) (classD abstract introspection t))) =
      some (f.arguments.map fun a => argumentType (accessPath q a) a.modifiers) := by
    have ha : ∀ a ∈ f.arguments, GenCode.TypeKnown T a := fun a ha => hk.arguments a ha
    generalize f.arguments = as at ha
    induction as with
    | nil => rfl
    | cons a as ih =>
      rw [List.map_cons, List.mapM_cons, ih fun x hx => ha x (List.mem_cons_of_mem _ hx),
        mean_argument (class_argument h ht (ha a List.mem_cons_self)) a.modifiers]
      rfl
  rw [this]
  simp [fieldSignature, result_out hk.modifiers, accessorName]

/-- With stubs, each function which the class declares for a field is defined once: with this name, and with the types of the
declaration. There are no others. -/
theorem C77_definitions (hn : IsNamespace ns q) (h : ClassesOk print read T is os)
    (hh : ReadsClasses (headerText false query is os) hs) (ht : t ∈ os)
    (hr : ReadsStubs (objectText print ns (query = some t.type) true t) k ds) :
    ∃ c, class? hs (cpp t.type) = some c ∧ (∀ s ∈ ds.filterMap stub?, s.c = c.name) ∧
      (ds.filterMap stub?).map (definition q hs c) = (own q hs c).map (·.2) ∧
      ((own q hs c).map (·.2)).Nodup ∧ ∀ s ∈ (own q hs c).map (·.2), s ≠ none := by
  rw [hh.unique (reads_classes false query h.toClassesWritten)]
  obtain ⟨rfl, rfl⟩ := hr.unique (reads_stubs hn (h.objects t ht) _ _)
  refine ⟨_, class_eq (names_objects h) ht, ?_⟩
  have hd : declared false t = t.fields := by simp [declared]
  rw [stubs_eq, own_eq h ht, List.map_map, hd]
  simp only [if_true]
  refine ⟨?_, ?_, ?_, ?_⟩
  · intro s hs
    obtain ⟨f, -, rfl⟩ := List.mem_map.1 hs
    rfl
  · rw [List.map_map]
    refine List.map_congr_left fun f hf => ?_
    exact definition_eq h ht hf false
  · refine List.Nodup.map_on (fun x hx y hy e => ?_) (List.Nodup.of_map _ (h.distinct t ht))
    refine List.inj_on_of_nodup_map (h.distinct t ht) hx hy (accessorName_inj (accessor_ok h ht x hx) (accessor_ok h ht y hy) ?_)
    exact congrArg Signature.name (Option.some.inj e)
  · intro s hs
    obtain ⟨f, -, rfl⟩ := List.mem_map.1 hs
    simp

theorem cString_no_zero {s : Str} (h : ∀ b ∈ s, b ≠ 0) : cString s = s := by
  unfold cString
  induction s with
  | nil => rfl
  | cons b s ih =>
    rw [List.takeWhile_cons_of_pos (by simpa using h b List.mem_cons_self), ih fun x hx => h x (List.mem_cons_of_mem _ hx)]

theorem name_no_zero {s : Str} (h : IsName s) : ∀ b ∈ s, b ≠ 0 := by
  rintro b hb rfl
  exact name_not_mem (by decide) h hb

theorem message_no_zero (h : WrittenOk print read t) {f : OutputField} (hf : f ∈ t.fields) : cString (message t f) = message t f := by
  refine cString_no_zero fun b hb => ?_
  simp only [message, List.mem_append] at hb
  rcases hb with ((hb | hb) | hb | hb) | hb
  · exact name_no_zero (cpp_name h.type.1) b hb
  · exact (by decide : ∀ b ∈ str "::", b ≠ 0) b hb
  · rcases h.accessor f hf with e | e <;> rw [e] at hb
    · exact (by decide : ∀ b ∈ str "get", b ≠ 0) b hb
    · exact (by decide : ∀ b ∈ str "apply", b ≠ 0) b hb
  · exact name_no_zero (GenObject.capital_name (h.name f hf)) b hb
  · exact (by decide : ∀ b ∈ str " is not implemented", b ≠ 0) b hb

theorem thrown_eq (hn : IsNamespace ns q) (h : ObjectOk print read T introspection t)
    (hr : ReadsStubs (objectText print ns introspection true t) k ds) {f : OutputField} (hf : f ∈ t.fields) :
    thrown k.c ds (f.accessor ++ capital f) = some (.other (message t f)) := by
  obtain ⟨rfl, rfl⟩ := hr.unique (reads_stubs hn h.toWrittenOk introspection true)
  have hd : (t.fields.map capital).Nodup := (List.nodup_append.1 h.distinct).1
  unfold thrown
  rw [stubs_eq, if_pos rfl, List.filter_map, filter_single hd hf]
  · simp only [List.map_cons, List.map_nil, stubD]
    rw [message_no_zero h.toWrittenOk hf]
  · simp [stubD, constructorK, accessorName]
  · intro g hg hp
    exact accessorName_inj (h.accessor g hg) (h.accessor f hf) (of_decide_eq_true hp).2

/-- A field of an object with stubs which are not overridden: the arguments are converted as in C74, the stub is called while the mutex
is locked, and the exception is that it is not implemented, with the names of the class and of the function. The mutex is unlocked. -/
theorem C77_not_implemented (hn : IsNamespace ns q) (hT : TypesOk print read T q) {fs : List Function}
    (hfs : ReadsFunctions (T.inputs.flatMap (inputText print ns)) fs) (h : ObjectOk print read T introspection t)
    (hr : ReadsStubs (objectText print ns introspection true t) k ds) {f : OutputField} (hf : f ∈ t.fields) (depth : Nat)
    (arguments : Members) :
    let name := f.accessor ++ capital f
    answer ⟨⟨read, convertWith read (knownConversions T q) (structures T q) fs depth⟩, fun g _ => thrown k.c ds g⟩ k
        (ds.filterMap resolver?) f.name (.map arguments) =
      some (match resolverArguments T depth f.arguments arguments with
        | .ok as => ([.lock, .call name (as.map (·.2)), .unlock],
            .throws (.other (cpp t.type ++ str "::" ++ name ++ str " is not implemented")))
        | .error e => ([], .throws e)
        | .depth => ([], .depth)) := by
  dsimp only
  rw [GenObject.C74_answer hn hT hfs h (C77_resolvers hn h.toWrittenOk hr) hf, thrown_eq hn h hr hf]
  rfl

/-! ## `Operations` -/

/-- The texts are C++ which can be read in just one way. -/
theorem C77_operations_code (h : OperationsWritten ops) :
    (∃! d, ReadsOperationsDecl (declText ops) d) ∧ ∃! o, ReadsOperationsDef (defText ops) o :=
  ⟨⟨_, reads_decl h, fun _ r => r.unique (reads_decl h)⟩, ⟨_, reads_def h, fun _ r => r.unique (reads_def h)⟩⟩

/-- The parameters of the constructor, in the order of the root types: pointers to the classes of the root types. -/
theorem C77_parameters (h : OperationsWritten ops) (hd : ReadsOperationsDecl (declText ops) d) (ns : Path) :
    d.params.map (fun m => CType.mean (fun p => some (inNamespaces ns [] p)) m.type) =
      ops.map fun o => some (.shared (.name ⟨ns.head, ns.tail ++ [str "object", cpp o.type]⟩)) := by
  rw [hd.unique (reads_decl h)]
  simp only [declD, List.map_map]
  refine List.map_congr_left fun o _ => ?_
  simp [paramD, rootType, CType.mean, inNamespaces]

/-- The variables, of which those for `done` are moved. -/
def vars {α : Type} (E : List (OperationType × α)) (done : List Str) : Vars α :=
  E.map fun e => (paramD e.1, if e.1.operation ∈ done then none else some e.2)

theorem find_vars {α : Type} {E : List (OperationType × α)} (hn : (E.map (·.1.operation)).Nodup) (done : List Str) {e : OperationType × α}
    (he : e ∈ E) : get e.1.operation (vars E done) = some (rootType e.1, if e.1.operation ∈ done then none else some e.2) := by
  unfold get vars
  rw [List.find?_map]
  have : E.find? ((fun v : Member × Option α => decide (v.1.name = e.1.operation)) ∘
      fun e => (paramD e.1, if e.1.operation ∈ done then none else some e.2)) = some e := by
    induction E with
    | nil => cases he
    | cons x E ih =>
      rw [List.map_cons, List.nodup_cons] at hn
      rcases List.mem_cons.1 he with rfl | he
      · simp [paramD]
      · rw [List.find?_cons_of_neg, ih hn.2 he]
        intro hx
        have hx : x.1.operation = e.1.operation := of_decide_eq_true hx
        exact hn.1 (hx ▸ List.mem_map_of_mem (f := fun e : OperationType × α => e.1.operation) he)
  rw [this]
  rfl

theorem clear_vars {α : Type} (E : List (OperationType × α)) (done : List Str) (x : Str) : clear x (vars E done) = vars E (x :: done) := by
  unfold clear vars
  rw [List.map_map]
  refine List.map_congr_left fun e _ => ?_
  by_cases hx : e.1.operation = x
  · simp [paramD, hx]
  · simp [paramD, hx]

theorem members_eq {α : Type} {E : List (OperationType × α)} (hn : (E.map (·.1.operation)).Nodup) (L : List (OperationType × α)) (done : List Str)
    (hL : ∀ e ∈ L, e ∈ E ∧ e.1.operation ∉ done) (hd : (L.map (·.1.operation)).Nodup) :
    members (E.map fun e => (⟨str "_" ++ e.1.operation, e.1.operation⟩ : Move)) (L.map fun e => memberD e.1) (vars E done) =
      some (L.map fun e => (str "_" ++ e.1.operation, some e.2)) := by
  induction L generalizing done with
  | nil => rfl
  | cons e L ih =>
    obtain ⟨he, hno⟩ := hL e List.mem_cons_self
    rw [List.map_cons, List.nodup_cons] at hd
    rw [List.map_cons, members]
    have hf : (E.map fun e => (⟨str "_" ++ e.1.operation, e.1.operation⟩ : Move)).filter (fun i => i.m = (memberD e.1).name) =
        [⟨str "_" ++ e.1.operation, e.1.operation⟩] := by
      rw [List.filter_map, filter_single hn he]
      · rfl
      · simp [memberD]
      · intro b _ hb
        simpa [memberD] using hb
    rw [hf]
    simp only
    rw [find_vars hn done he]
    simp only [if_neg hno]
    rw [if_pos (show rootType e.1 = (memberD e.1).type from rfl), clear_vars, ih (e.1.operation :: done) _ hd.2]
    · rfl
    · intro x hx
      refine ⟨(hL x (List.mem_cons_of_mem _ hx)).1, ?_⟩
      simp only [List.mem_cons, not_or]
      exact ⟨fun h => hd.1 (h ▸ List.mem_map_of_mem (f := fun e : OperationType × α => e.1.operation) hx), (hL x (List.mem_cons_of_mem _ hx)).2⟩

theorem mapOf_nodup {β : Type} {l : List (Str × β)} (h : (l.map (·.1)).Nodup) : mapOf l = l := by
  induction l with
  | nil => rfl
  | cons e l ih =>
    rw [List.map_cons, List.nodup_cons] at h
    rw [mapOf, ih h.2, List.filter_eq_self.2]
    intro x hx
    simp only [ne_eq, decide_not, Bool.not_eq_true', decide_eq_false_iff_not]
    exact fun hx' => h.1 (hx' ▸ List.mem_map_of_mem hx)

/-- The constructor which is defined is the one which is declared. What it makes has for each kind of operations of the schema the
object which was given for it, both in the map of the request and as a member; and nothing else. -/
theorem C77_operations {α : Type} (ns : Path) (hh : ClassesWritten print read is os)
    {abstract : Bool} (hhs : ReadsClasses (headerText abstract query is os) hs) (h : OperationsOk os ops)
    (hd : ReadsOperationsDecl (declText ops) d) (ho : ReadsOperationsDef (defText ops) o) (args : List α) (hl : args.length = ops.length) :
    ∃ m, make ns hs d o args = some m ∧
      m.operations = (ops.zip args).map (fun e => (e.1.operation, some e.2)) ∧
      m.members = (ops.zip args).map (fun e => (str "_" ++ e.1.operation, some e.2)) := by
  rw [hhs.unique (reads_classes abstract query hh), hd.unique (reads_decl h.toOperationsWritten), ho.unique (reads_def h.toOperationsWritten)]
  have hE : ops = (ops.zip args).map (·.1) := by
    rw [List.map_fst_zip (by omega)]
  generalize hz : ops.zip args = E at hE ⊢
  have hn : (E.map (·.1.operation)).Nodup := by
    have := h.distinct
    rw [hE, List.map_map] at this
    exact this
  have hdec : (declD ops).params = (defD ops).params ∧ args.length = (defD ops).params.length ∧ ((defD ops).params.map (·.name)).Nodup ∧
      ((declD ops).members.map (·.name)).Nodup ∧ (defD ops).moves.all (fun i => decide (i.m ∈ (declD ops).members.map (·.name))) ∧
      ((declD ops).params ++ (declD ops).members).all (fun m => pointer ns (headerD abstract query is os) m.type) := by
    refine ⟨rfl, by simp [defD, hl], ?_, ?_, ?_, ?_⟩
    · simp only [defD, List.map_map]
      exact h.distinct
    · simp only [declD, List.map_map]
      have := h.distinct.map (f := fun s => str "_" ++ s) fun a b e => List.append_cancel_left e
      rw [List.map_map] at this
      exact this
    · simp only [defD, declD, List.map_map, List.all_map, List.all_eq_true, Function.comp, decide_eq_true_eq]
      intro x hx
      exact List.mem_map_of_mem (f := fun o : OperationType => str "_" ++ o.operation) hx
    · rw [List.all_eq_true]
      intro m hm
      have : ∃ x ∈ ops, m.type = rootType x := by
        rcases List.mem_append.1 hm with hm | hm <;> obtain ⟨x, hx, rfl⟩ := List.mem_map.1 hm <;> exact ⟨x, hx, rfl⟩
      obtain ⟨x, hx, e⟩ := this
      obtain ⟨t, ht, et⟩ := h.known x hx
      rw [e]
      simp only [rootType, pointer, inNamespaces, if_true, isObject, objects_eq, Bool.or_eq_true, List.any_eq_true, decide_eq_true_eq]
      exact .inr ⟨_, List.mem_map_of_mem (f := fun t : ObjectType => cpp t.type) ht, by rw [et]⟩
  unfold make
  rw [if_pos hdec]
  have hv : (defD ops).params.zip (args.map some) = vars E [] := by
    simp only [defD, vars, List.zip_map, hz]
    exact List.map_congr_left fun e _ => by simp [Prod.map]
  have hes : (defD ops).entries.mapM (fun e => (get e.x (vars E [])).map fun v => (cString e.name, v.2)) =
      some (E.map fun e => (e.1.operation, some e.2)) := by
    have hk : ∀ e ∈ E, e.1.operation ∈ kinds := fun e he => h.kind _ (by rw [hE]; exact List.mem_map_of_mem he)
    have key : ∀ L : List (OperationType × α), (∀ e ∈ L, e ∈ E) → (L.map fun e => (⟨e.1.operation, e.1.operation⟩ : Pair)).mapM
        (fun e => (get e.x (vars E [])).map fun v => (cString e.name, v.2)) = some (L.map fun e => (e.1.operation, some e.2)) := by
      intro L
      induction L with
      | nil => intro _; rfl
      | cons e L ih =>
        intro hL
        rw [List.map_cons, List.mapM_cons, ih fun x hx => hL x (List.mem_cons_of_mem _ hx)]
        simp only
        rw [find_vars hn [] (hL e List.mem_cons_self), (kind_name (hk e (hL e List.mem_cons_self))).2.2.2]
        rfl
    have e : (defD ops).entries = E.map fun e => (⟨e.1.operation, e.1.operation⟩ : Pair) := by
      simp only [defD]
      rw [hE, List.map_map]
      rfl
    rw [e]
    exact key E fun _ hx => hx
  have hm : members (defD ops).moves (declD ops).members (vars E []) = some (E.map fun e => (str "_" ++ e.1.operation, some e.2)) := by
    have e1 : (defD ops).moves = E.map fun e => (⟨str "_" ++ e.1.operation, e.1.operation⟩ : Move) := by
      simp only [defD]
      rw [hE, List.map_map]
      rfl
    have e2 : (declD ops).members = E.map fun e => memberD e.1 := by
      simp only [declD]
      rw [hE, List.map_map]
      rfl
    rw [e1, e2]
    exact members_eq hn E [] (fun e he => ⟨he, by simp⟩) hn
  dsimp only
  rw [hv, hes, hm]
  refine ⟨_, rfl, ?_, rfl⟩
  exact mapOf_nodup (by rw [List.map_map]; exact hn)

/-- So an operation is answered by the object for its kind, and operations of a kind which the schema does not have by none. -/
theorem C77_find {α : Type} (ns : Path) (hh : ClassesWritten print read is os)
    {abstract : Bool} (hhs : ReadsClasses (headerText abstract query is os) hs) (h : OperationsOk os ops)
    (hd : ReadsOperationsDecl (declText ops) d) (ho : ReadsOperationsDef (defText ops) o) (args : List α) (hl : args.length = ops.length) :
    ∃ m, make ns hs d o args = some m ∧ (∀ i (hi : i < ops.length), m.find ops[i].operation = some (some args[i])) ∧
      ∀ s, s ∉ ops.map (·.operation) → m.find s = none := by
  obtain ⟨m, h1, h2, -⟩ := C77_operations ns hh hhs h hd ho args hl
  refine ⟨m, h1, fun i hi => ?_, fun s hs => ?_⟩
  · have hm : (ops[i].operation, some args[i]) ∈ m.operations := by
      rw [h2]
      refine List.mem_map.2 ⟨(ops[i], args[i]), ?_, rfl⟩
      rw [List.mem_iff_getElem]
      exact ⟨i, by simp; omega, by simp⟩
    have hn : (m.operations.map (·.1)).Nodup := by
      rw [h2, List.map_map]
      have := h.distinct
      rw [show ops = (ops.zip args).map (·.1) by rw [List.map_fst_zip (by omega)], List.map_map] at this
      exact this
    unfold Made.find
    rw [GenObject.find_perm (g := fun e : Str × Option α => e.1) (.refl _) hn hm]
    rfl
  · unfold Made.find
    rw [List.find?_eq_none.2]
    · rfl
    · intro e he hx
      rw [h2] at he
      obtain ⟨y, hy, rfl⟩ := List.mem_map.1 he
      exact hs (of_decide_eq_true hx ▸ List.mem_map_of_mem (List.of_mem_zip hy).1)

/-- Two root types for the same kind of operations: what is written is not C++. -/
theorem C77_repeated {α : Type} (ns : Path) (h : OperationsWritten ops) (hr : ¬(ops.map (·.operation)).Nodup)
    (hd : ReadsOperationsDecl (declText ops) d) (ho : ReadsOperationsDef (defText ops) o) (args : List α) : make ns hs d o args = none := by
  rw [hd.unique (reads_decl h), ho.unique (reads_def h)]
  unfold make
  rw [if_neg]
  rintro ⟨-, -, h1, -⟩
  refine hr ?_
  simp only [defD, List.map_map] at h1
  exact h1

end Verif.GenStub
