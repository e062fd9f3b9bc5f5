import Verif.GenHidden.Read
import Verif.GenStub.Claims
import Verif.Intro.Claims

/-!
# C78: the resolvers of introspection
-/
namespace Verif.GenHidden
open Verif.Value Verif.Resp Verif.Text Verif.GenText Verif.Errors Verif.Exec Verif.Modifiers
open Verif.GenCode (numberE cString)
open Verif.GenObject (WrittenOk ObjectOk constructorK capital hiddenFields)
open Verif.GenStub (definitions resolver?)
open Verif.Gen (ObjectType)
open Verif.Gen.Service (Types)
open Verif.Intro (Obj)
open Verif.TypeSystem (Addr)
open Verif.Cpp (Path path word)
open Verif.Cpp.Code (SchemaMethod TypeMethod ReadsHidden ReadsQuery ReadsStubs Constructor Definition Entry)

variable {print : Double → Str} {read : Str → Double} {T : Types} {ns : Str} {q : Path} {introspection stubs : Bool} {t : ObjectType}
  {k : Constructor} {ds : List Definition} {a : SchemaMethod} {b : TypeMethod} {E O : Type}

/-- Without introspection, and for all objects but that for queries, there is nothing behind the text of C77. -/
theorem C78_none (print : Double → Str) (ns : Str) (stubs : Bool) (t : ObjectType) :
    objectText print ns false stubs t = GenStub.objectText print ns false stubs t := by
  simp [objectText]

/-- The whole text is C++ which can be read in just one way: behind the text of C77 comes one which is two methods, and nothing else. -/
theorem C78_code (hn : IsNamespace ns q) (h : WrittenOk print read t) (stubs : Bool) :
    ∃ rest k ds a b, objectText print ns true stubs t = GenStub.objectText print ns true stubs t ++ rest ∧
      ReadsStubs (GenStub.objectText print ns true stubs t) k ds ∧ ReadsHidden rest a b ∧
      (∀ a' b', ReadsHidden rest a' b' → a' = a ∧ b' = b) ∧
      ReadsQuery (objectText print ns true stubs t) k ds a b ∧
      ∀ k' ds' a' b', ReadsQuery (objectText print ns true stubs t) k' ds' a' b' → k' = k ∧ ds' = ds ∧ a' = a ∧ b' = b :=
  ⟨hiddenText t, _, _, _, _, by simp [objectText], GenStub.reads_stubs hn h true stubs, reads_hidden h.type,
    fun _ _ r => r.unique (reads_hidden h.type), reads_query hn h stubs, fun _ _ _ _ r => r.unique (reads_query hn h stubs)⟩

/-- The rest is what C77 and C74 are about. -/
theorem C78_rest (hn : IsNamespace ns q) (h : WrittenOk print read t) (hr : ReadsQuery (objectText print ns true stubs t) k ds a b) :
    ReadsStubs (GenStub.objectText print ns true stubs t) k ds := by
  obtain ⟨rfl, rfl, rfl, rfl⟩ := hr.unique (reads_query hn h stubs)
  exact GenStub.reads_stubs hn h true stubs

/-- No method is defined twice if the names of the fields, with the first letter as a capital letter, are different, and are not those of
the fields which are added. -/
theorem C78_methods (hn : IsNamespace ns q) (h : WrittenOk print read t) (hr : ReadsQuery (objectText print ns true stubs t) k ds a b) :
    ((ds.filterMap resolver?).map (fun m => (m.c, m.f)) ++ [(a.c, a.f), (b.c, b.f)]).Nodup ↔
      (t.fields.map capital ++ [str "_typename", str "_schema", str "_type"]).Nodup := by
  have hs := GenStub.C77_resolvers hn h (C78_rest hn h hr)
  obtain ⟨-, hms⟩ := hs.unique (GenObject.reads_object hn h)
  obtain ⟨rfl, rfl, rfl, rfl⟩ := hr.unique (reads_query hn h stubs)
  rw [hms]
  have : (GenObject.methods (numberE print) q t).map (fun m => (m.c, m.f)) ++
      [((schemaM t).c, (schemaM t).f), ((typeM t).c, (typeM t).f)] =
      (t.fields.map capital ++ [str "_typename", str "_schema", str "_type"]).map fun s => (cpp t.type, str "resolve" ++ s) := by
    simp [GenObject.methods, GenObject.resolverM, GenObject.typenameM, GenObject.resolver, Function.comp_def, schemaM, typeM]
    decide
  rw [this]
  exact List.nodup_map_iff fun a b e => List.append_cancel_left (Prod.mk.inj e).2

/-- `resolverOf` of the entries of the two fields. -/
theorem resolverOf_eq (hn : IsNamespace ns q) (h : ObjectOk print read T true t)
    (hr : ReadsQuery (objectText print ns true stubs t) k ds a b) (s : TypeSystem.Schema) :
    (resolverOf k ds a b s (str "__schema") : Option (Resolver E (Obj O))) = schemaMeans true (schemaM t) ∧
    (resolverOf k ds a b s (str "__type") : Option (Resolver E (Obj O))) = typeMeans true s (typeM t) := by
  obtain ⟨rfl, rfl, rfl, rfl⟩ := hr.unique (reads_query hn h.toWrittenOk stubs)
  have hc := GenStub.C77_resolvers hn h.toWrittenOk (GenStub.reads_stubs hn h.toWrittenOk true stubs)
  have hf := GenObject.C74_fields hn h hc
  have hms := (hc.unique (GenObject.reads_object hn h.toWrittenOk)).2
  have hd := h.distinct
  have entry : ∀ n ∈ hiddenFields true,
      (constructorK true t).entries.find? (fun e => e.name = n) = some ⟨n, GenObject.hiddenMethod n⟩ := by
    intro n hn'
    have he : Entry.mk n (GenObject.hiddenMethod n) ∈ (constructorK true t).entries := by
      simp only [constructorK, List.mem_map]
      exact ⟨(n, ⟨n, GenObject.hiddenMethod n⟩), (GenObject.resolvers_perm Entry.mk GenObject.resolver true h.names h.reserved).mem_iff.2
        (by simp only [List.mem_append, List.mem_map]; exact .inr ⟨n, hn', rfl⟩), rfl⟩
    have hk : ((constructorK true t).entries.map (·.name)).Nodup := by
      refine ((hf.1).nodup_iff).2 ?_
      rw [List.nodup_append]
      refine ⟨h.names, by decide, fun a ha b hb e => ?_⟩
      obtain ⟨f, hf, rfl⟩ := List.mem_map.1 ha
      exact h.reserved f hf (e ▸ hb)
    exact GenObject.find_perm (g := Entry.name) (.refl _) hk he
  have other : ∀ x ∈ [str "_schema", str "_type"],
      ((definitions (numberE print) q stubs t).filterMap resolver?).filter
        (fun m => m.c = (constructorK true t).c ∧ m.f = str "resolve" ++ x) = [] := by
    intro x hx
    rw [hms, List.filter_eq_nil_iff]
    intro m hm
    simp only [decide_eq_true_eq, not_and]
    intro _ e
    have hx' : x ∉ t.fields.map capital ∧ x ≠ str "_typename" := by
      rw [List.nodup_append] at hd
      simp only [List.mem_cons, List.not_mem_nil, or_false] at hx
      refine ⟨fun hm => hd.2.2 _ hm x ?_ rfl, ?_⟩
      · rcases hx with rfl | rfl <;> decide
      · rcases hx with rfl | rfl <;> decide
    simp only [GenObject.methods, List.mem_append, List.mem_map, List.mem_singleton] at hm
    rcases hm with ⟨f, hf, rfl⟩ | rfl
    · refine hx'.1 (List.mem_map.2 ⟨f, hf, ?_⟩)
      exact List.append_cancel_left (as := str "resolve") e
    · refine hx'.2 (List.append_cancel_left (as := str "resolve") ?_).symm
      rw [← show str "resolve_typename" = str "resolve" ++ str "_typename" by decide]
      exact e
  constructor
  · unfold resolverOf
    rw [entry _ (by decide)]
    rw [show GenObject.hiddenMethod (str "__schema") = str "resolve" ++ str "_schema" by decide, Option.bind_some]
    simp only [other (str "_schema") (by simp)]
    rw [if_pos ⟨⟨rfl, show str "resolve_schema" = str "resolve" ++ str "_schema" by decide⟩, by
      rintro ⟨-, e⟩
      exact absurd e (show ¬str "resolve_type" = str "resolve" ++ str "_schema" by decide)⟩]
    rfl
  · unfold resolverOf
    rw [entry _ (by decide)]
    rw [show GenObject.hiddenMethod (str "__type") = str "resolve" ++ str "_type" by decide, Option.bind_some]
    simp only [other (str "_type") (by simp)]
    rw [if_neg (by
      rintro ⟨⟨-, e⟩, -⟩
      exact absurd e (show ¬str "resolve_schema" = str "resolve" ++ str "_type" by decide)),
      if_pos ⟨⟨rfl, show str "resolve_type" = str "resolve" ++ str "_type" by decide⟩, by
      rintro ⟨-, e⟩
      exact absurd e (show ¬str "resolve_schema" = str "resolve" ++ str "_type" by decide)⟩]
    rfl

theorem schemaMeans_eq (t : ObjectType) : (schemaMeans true (schemaM t) : Option (Resolver E (Obj O))) = some Intro.resolveSchema := rfl

theorem typeMeans_eq (s : TypeSystem.Schema) (t : ObjectType) :
    (typeMeans true s (typeM t) : Option (Resolver E (Obj O))) = some (Intro.resolveType s) := by
  have hc : ∀ o : Option (Obj O), converted (path "introspection" ["object", "Type"]) [path "service" ["TypeModifier", "Nullable"]] o =
      some (.nullable (.object false), Intro.maybeObject o) := by
    intro o
    cases o <;> rfl
  unfold typeMeans
  rw [if_pos (by
    refine ⟨rfl, rfl, rfl, show declared [str "params", str "argName", str "baseType", str "result"] by decide, rfl, rfl, rfl, rfl, rfl, rfl, rfl, rfl⟩)]
  simp only [typeM, hc, Option.map_some, Option.getD_some]
  rw [show cString (str "name") = str "name" by decide]
  rfl

/-- The object for queries has the fields `__schema` and `__type`. The one gives the schema. The other needs an argument `name`, a
string: it gives the type which the schema has under this name; if there is none, the exception which `LookupType` throws. -/
theorem C78_answer (hn : IsNamespace ns q) (h : ObjectOk print read T true t)
    (hr : ReadsQuery (objectText print ns true stubs t) k ds a b)
    (s : TypeSystem.Schema) :
    (∃ r : Resolver E (Obj O), resolverOf k ds a b s (str "__schema") = some r ∧ r.type = .object true ∧
      ∀ params, r.access params = .pure (.value (.object (some .schema)))) ∧
    (∃ r : Resolver E (Obj O), resolverOf k ds a b s (str "__type") = some r ∧ r.type = .nullable (.object false) ∧
      ∀ params, r.access params =
        match params.arguments.find (str "name") with
        | none => .throw (.other (str "Missing Map member"))
        | some (.string n _) =>
          match s.lookupType n with
          | .ok p => .pure (.value (.present (.object (some (.type p)))))
          | .error e => .throw e
        | some _ => .throw (.message (str "Invalid argument: name error: not a string"))) := by
  obtain ⟨h1, h2⟩ := resolverOf_eq (E := E) (O := O) hn h hr s
  refine ⟨⟨_, h1.trans (schemaMeans_eq t), rfl, fun _ => rfl⟩, ⟨_, h2.trans (typeMeans_eq s t), rfl, fun params => ?_⟩⟩
  simp only [Intro.resolveType, requireLeaf, index]
  cases hf : params.arguments.find (str "name") with
  | none => rfl
  | some v =>
    cases v with
    | string n j =>
      simp only [convertString]
      have e : ∀ f : Str → Run E (FieldResult E (Obj O)), (Run.lift (Except.ok n)).bind f = f n := fun _ => rfl
      rw [e]
      generalize s.lookupType n = l
      cases l <;> rfl
    | _ => rfl

/-- These are the resolvers of the service in C64: the query object of the user with introspection. -/
theorem C78_introspection (hn : IsNamespace ns q) (h : ObjectOk print read T true t)
    (hr : ReadsQuery (objectText print ns true stubs t) k ds a b)
    (s : TypeSystem.Schema) (user : Request.Service E O) (isQuery : O → Bool) (o : O) (ho : isQuery o = true) (name : Str)
    (hname : name = str "__schema" ∨ name = str "__type") :
    resolverOf k ds a b s name = (Intro.introspected s isQuery user).impl.resolver (.user o) name := by
  obtain ⟨h1, h2⟩ := resolverOf_eq (E := E) (O := O) hn h hr s
  rcases hname with rfl | rfl
  · rw [h1, schemaMeans_eq]
    simp [Intro.introspected, Intro.withIntrospection, Intro.resolvers, ho]
  · rw [h2, typeMeans_eq]
    simp only [Intro.introspected, Intro.withIntrospection, Intro.resolvers, ho, Bool.true_and, beq_self_eq_true, if_true]
    rw [if_neg (by decide +kernel)]

/-- **Finding.** In a generated service which has validated any requests, `__type` of a name which is not the name of a type throws, as in C64; by the
GraphQL specification it is null. The code `baseType ? ... : nullptr` is written for a null pointer, but there is none. -/
theorem C78_finding_unknown (hn : IsNamespace ns q) (h : ObjectOk print read T true t)
    (hr : ReadsQuery (objectText print ns true stubs t) k ds a b)
    {l : Gen.Loader} {s : TypeSystem.Schema} {alloc : List TypeSystem.Op → Addr} (hf : Gen.FreshAddrs alloc) (hd : Gen.DistinctNames l)
    (hq : ∃ o ∈ l.operationTypes, o.operation = str "query") (hb : Gen.generatedSchema false alloc l = .ok s)
    {alloc' : TypeSystem.Schema → Addr} (hf' : View.Fresh alloc') {v : View.Validator} (hv : View.Reachable alloc' s true v)
    (E O : Type) [Inhabited O] :
    ∃ r : Resolver E (Obj O), resolverOf k ds a b v.schema (str "__type") = some r ∧
      ∀ params n j, params.arguments.find (str "name") = some (.string n j) → n ∉ (Intro.Spec.allDefinitions l).map (·.1) →
        r.access params = .throw (.message (Intro.Spec.notFound n)) := by
  let user : Request.Service E O := ⟨⟨fun _ => [], fun _ _ => none, fun _ _ => .pure (), fun _ _ => .pure ()⟩, fun _ => none, fun _ => [], id⟩
  obtain ⟨r, h1, h2⟩ := Intro.C64_finding_unknown hf hd hq hb hf' hv (fun _ => true) user (o := default) rfl
  refine ⟨r, ?_, fun params n j hp hnn => h2 params n j hp hnn⟩
  rw [C78_introspection hn h hr v.schema user (fun _ => true) default rfl _ (.inr rfl)]
  exact h1

end Verif.GenHidden
