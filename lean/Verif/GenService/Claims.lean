import Verif.GenService.Spec
import Verif.GenHidden.Claims
import Verif.Gen.ValidateClaims
import Verif.View.Examples

/-!
# C79: a service which is made of generated classes
-/
namespace Verif.GenService
open Verif.Value Verif.Resp Verif.Ast Verif.Exec Verif.Text
open Verif.Gen (Loader DistinctNames FreshAddrs generatedSchema visitDefinitions validateSchema ObjectType Validated unionsOf)
open Verif.Gen.Service (Types)
open Verif.Intro (Obj introspected UserServiceFor)
open Verif.GenHidden (resolverOf objectText)
open Verif.GenObject (WrittenOk ObjectOk)
open Verif.GenClass (ClassesWritten headerText)
open Verif.GenStub (Made make declText defText OperationsOk)
open Verif.GenText (IsNamespace cpp)
open Verif.Request (Service resolve response)
open Verif.TypeSystem (Op Schema Addr)
open Verif.View (declared Fresh Reachable Validator)
open Verif.Validation.Spec (Consistent)
open Verif.Gen.Client (NoDuplicates Answers)
open Verif.Sound (Accepted Supplied Serves Throws)
open Verif.Cpp (Path)
open Verif.Cpp.Code (Constructor Definition SchemaMethod TypeMethod ClassHeader OperationsDecl OperationsDef ReadsQuery ReadsClasses
  ReadsOperationsDecl ReadsOperationsDef)

variable {print : Double → Str} {read : Str → Double} {T : Types} {ns : Str} {q : Path} {stubs : Bool} {t : ObjectType}
  {k : Constructor} {ds : List Cpp.Code.Definition} {a : SchemaMethod} {b : TypeMethod} {E O : Type} {l₀ l : Loader} {hs : List ClassHeader}
  {d : OperationsDecl} {o : OperationsDef} {m : Made O} {typeOf : O → Str} {P : Str → Prop} {isQuery : O → Bool}

/-- The service is the one which C64 is about, for the user's service whose operations are those of `Operations`. -/
theorem C79_service (hn : IsNamespace ns q) (h : ObjectOk print read T true t)
    (hr : ReadsQuery (objectText print ns true stubs t) k ds a b) (m : Made O) (s : Schema) (isQuery : O → Bool) (user : Service E O) :
    service k ds a b m s isQuery user = introspected s isQuery { user with operations := m.find } := by
  have e : ∀ x name, (service k ds a b m s isQuery user).impl.resolver x name =
      (introspected s isQuery { user with operations := m.find }).impl.resolver x name := by
    intro x name
    cases x with
    | user x =>
      simp only [service]
      split
      · rename_i hc
        exact GenHidden.C78_introspection hn h hr s _ isQuery x hc.1 name hc.2
      · rename_i hc
        simp only [introspected, Intro.withIntrospection, Intro.resolvers]
        rw [if_neg, if_neg]
        · simp only [Bool.and_eq_true, beq_iff_eq]
          exact fun e => hc ⟨e.1, .inr e.2⟩
        · simp only [Bool.and_eq_true, beq_iff_eq]
          exact fun e => hc ⟨e.1, .inl e.2⟩
    | _ => rfl
  have e' := funext fun x => funext fun name => e x name
  unfold introspected at e' ⊢
  unfold service at e' ⊢
  dsimp only at e' ⊢
  rw [e']

theorem find_declared (hd : DistinctNames l) (c : Bool) {n : Str} {x : Validation.TypeDef} (h : (n, x) ∈ View.typesOf l) :
    (declared c l).find n = some x := by
  rw [View.find_eq]
  · exact List.mem_append_right _ h
  · simp only [View.declared, List.map_append, View.typesOf_names]
    exact hd.1

theorem matching_object (hd : DistinctNames l) (ht : t ∈ l.objectTypes) : (declared false l).matching t.type = [t.type] := by
  rw [Validation.Schema.matching, find_declared hd false (n := t.type) (x := { kind := .object, fields := t.fields.map View.fieldOf })]
  refine List.mem_append_right _ (List.mem_map.2 ⟨t, ht, rfl⟩)

/-- In the loaded schema each object knows the unions which it is an option of. -/
theorem unions_of {doc : List Gen.TypeDef} {atoi : Int → Int} (h1 : visitDefinitions atoi {} doc = .ok l₀)
    (h2 : validateSchema false l₀ = .ok l) (hd : DistinctNames l) (ht : t ∈ l.objectTypes) : t.unions = unionsOf l t.type := by
  have hv := Gen.C54_result h1 h2
  obtain ⟨pre, post, e⟩ := List.append_of_mem ht
  rw [hv.unions pre t post e ?_]
  · unfold unionsOf
    rw [hv.rest.2.2.2.1]
  · intro u hu he
    have hn : (l.objectTypes.map (·.type)).Nodup := by
      have := (List.nodup_append.1 hd.1).2.1
      exact (List.nodup_append.1 this).2.1
    rw [e, List.map_append, List.map_cons] at hn
    have := (List.nodup_cons.1 (List.nodup_append.1 hn).2.1).1
    exact this (he ▸ List.mem_map_of_mem hu)

/-- The type names of the generated classes are right: an object says that it is of an interface, of a union or of an object type only
if its type is one of the possible types of it. -/
theorem C79_names (hn : IsNamespace ns q) (hw : ∀ t ∈ l.objectTypes, WrittenOk print read t) {doc : List Gen.TypeDef} {atoi : Int → Int}
    (h1 : visitDefinitions atoi {} doc = .ok l₀) (h2 : validateSchema false l₀ = .ok l) (hd : DistinctNames l)
    (hi : ∀ t ∈ l.objectTypes, ∀ n ∈ t.interfaces, n ∈ l.interfaceTypes.map (·.type)) {I : Impl E O}
    (hI : ObjectsFor print ns l I typeOf P) : Serves (declared false l) I typeOf P where
  names x name hx := by
    obtain ⟨t, ht, e, intro', k, ms, hr, hk⟩ := hI.ofClass x
    rw [hk, (GenObject.C74_types hn (hw t ht) hr).1] at hx
    rw [e]
    simp only [List.mem_append, List.mem_singleton] at hx
    rcases hx with (hx | hx) | rfl
    · obtain ⟨i, hmi, rfl⟩ := List.mem_map.1 (hi t ht _ hx)
      rw [Validation.Schema.matching, find_declared hd false (n := i.type) (x := { kind := .interface, fields := i.fields.map View.fieldOf
                                                                                   possibleTypes := Gen.implementing l i.type })]
      · refine List.mem_flatMap.2 ⟨t, ht, List.mem_map.2 ⟨i.type, List.mem_filter.2 ⟨hx, by simp⟩, rfl⟩⟩
      · exact List.mem_append_left _ (List.mem_append_right _ (List.mem_map.2 ⟨i, hmi, rfl⟩))
    · rw [unions_of h1 h2 hd ht] at hx
      obtain ⟨u, hu, hx⟩ := List.mem_flatMap.1 hx
      obtain ⟨p, hp, rfl⟩ := List.mem_map.1 hx
      obtain ⟨hp, he⟩ := List.mem_filter.1 hp
      rw [Validation.Schema.matching, find_declared hd false (n := u.type) (x := { kind := .union, possibleTypes := u.options })]
      · exact of_decide_eq_true he ▸ hp
      · exact List.mem_append_left _ (List.mem_append_left _ (List.mem_append_right _ (List.mem_map.2 ⟨u, hu, rfl⟩)))
    · rw [matching_object hd ht]
      simp
  fields := hI.serves.fields
  begins := hI.serves.begins
  ends := hI.serves.ends

/-- `Operations` has an object of the right type for each kind of operations of the schema. -/
theorem C79_roots (np : Path) (hh : ClassesWritten print read l.interfaceTypes l.objectTypes) {abstract : Bool} {query : Option Str}
    (hhs : ReadsClasses (headerText abstract query l.interfaceTypes l.objectTypes) hs) (ho : OperationsOk l.objectTypes l.operationTypes)
    (hdc : ReadsOperationsDecl (declText l.operationTypes) d) (hdf : ReadsOperationsDef (defText l.operationTypes) o)
    (hd : DistinctNames l) (hq : ∃ o ∈ l.operationTypes, o.operation = str "query") {args : List O}
    (hargs : List.Forall₂ (fun x r => typeOf x = r.type) args l.operationTypes) (hm : make np hs d o args = some m) (type root : Str)
    (h : (declared false l).operationType type = some root) :
    ∃ x, m.find type = some (some x) ∧ typeOf x ∈ (declared false l).matching root := by
  have hroot : ∃ r ∈ l.operationTypes, r.operation = type ∧ r.type = root := by
    have found : ∀ s, View.rootOf l s = some root → ∃ r ∈ l.operationTypes, r.operation = s ∧ r.type = root := by
      intro s hs
      obtain ⟨r, hr, rfl⟩ := Option.map_eq_some_iff.1 hs
      exact ⟨r, List.mem_reverse.1 (List.mem_of_find?_eq_some hr), by simpa using List.find?_some hr, rfl⟩
    unfold Validation.Schema.operationType at h
    split at h
    · rename_i e
      subst e
      refine found _ ?_
      obtain ⟨r, hr, he⟩ := hq
      simp only [View.declared] at h
      cases hs : View.rootOf l (str "query") with
      | some x =>
        rw [hs] at h
        exact h
      | none =>
        have := List.find?_eq_none.1 (Option.map_eq_none_iff.1 hs) r (List.mem_reverse.2 hr)
        exact absurd he (by simpa using this)
    · split at h
      · rename_i e
        exact e ▸ found _ h
      · split at h
        · rename_i e
          exact e ▸ found _ h
        · cases h
  obtain ⟨r, hr, rfl, rfl⟩ := hroot
  obtain ⟨m', hm', hfind, -⟩ := GenStub.C77_find (α := O) np hh hhs ho hdc hdf args hargs.length_eq
  rw [hm'] at hm
  cases hm
  obtain ⟨i, hi, rfl⟩ := List.mem_iff_getElem.1 hr
  refine ⟨_, hfind i hi, ?_⟩
  obtain ⟨t, ht, e⟩ := ho.known _ hr
  have he := (List.forall₂_iff_get.1 hargs).2 i (by rw [hargs.length_eq]; exact hi) hi
  simp only [List.get_eq_getElem] at he
  rw [he, ← e, matching_object hd ht]
  simp

/-- **C79.** A service which is made of the generated `Operations`, of the generated class for queries, with its resolvers of
introspection, and of objects of the generated classes, whose accessors the user writes. A request with an operation which the validator
accepts: each error of the response has a message of an accessor, or it is about a name for `__type` which is not the name of a
type; if there is none, the data is an answer to the operation. -/
theorem C79_answers (hn : IsNamespace ns q)
    -- the schema
    {doc : List Gen.TypeDef} {atoi : Int → Int} (h1 : visitDefinitions atoi {} doc = .ok l₀) (h2 : validateSchema false l₀ = .ok l)
    (hd : DistinctNames l) {alloc : List Op → Addr} (hf : FreshAddrs alloc) {s : Schema} (hb : generatedSchema false alloc l = .ok s)
    {alloc' : Schema → Addr} (hf' : Fresh alloc') {v : Validator} (hv : Reachable alloc' s true v)
    -- the class for queries
    (htq : t.type = (declared false l).query) (hok : ObjectOk print read T true t)
    (hr : ReadsQuery (objectText print ns true stubs t) k ds a b)
    -- `Operations`
    (hh : ClassesWritten print read l.interfaceTypes l.objectTypes) {abstract : Bool} {query : Option Str}
    (hhs : ReadsClasses (headerText abstract query l.interfaceTypes l.objectTypes) hs) (ho : OperationsOk l.objectTypes l.operationTypes)
    (hdc : ReadsOperationsDecl (declText l.operationTypes) d) (hdf : ReadsOperationsDef (defText l.operationTypes) o) (np : Path)
    {args : List O} (hargs : List.Forall₂ (fun x r => typeOf x = r.type) args l.operationTypes) (hm : make np hs d o args = some m)
    -- the objects
    {user : Service E O}
    (hval : ∀ doc, (user.validate doc).map (·.message) = (Validation.validate (declared true l) user.atoiOverflow doc {}).1)
    (hI : ObjectsFor print ns l user.impl typeOf P) (hisq : ∀ x, isQuery x = true ↔ typeOf x = t.type)
    -- the request
    {doc : Document} {op : Operation} {root : Str} (h : Accepted (declared true l) user.atoiOverflow doc op root)
    (hfr : ∀ f ∈ doc.fragments, Consistent (declared true l) doc.fragments f.typeCondition f.sub) {supplied : Members}
    (hsup : Supplied (declared true l) doc op supplied) {name : Str} (hname : Request.Spec.Selects doc.operations name op)
    (hsub : op.type.getD (str "query") ≠ str "subscription") (validated : Bool) :
    ∃ run, resolve (service k ds a b m v.schema isQuery user) validated doc name supplied = .done run ∧
      match run.result with
      | .ok answer => ∃ data errors, answer = response ⟨data, errors⟩ ∧
          (∀ e ∈ errors, P e.message ∨ ∃ n, e.message = Intro.Spec.notFound n) ∧
          (errors = [] → Answers (declared true l) doc.fragments (.named root) (some op.sub) data ∧ NoDuplicates data ∧ data ≠ .null)
      | .error x => Throws (fun m => P m ∨ ∃ n, m = Intro.Spec.notFound n) x := by
  have hq := View.accepted_query h1 h2
  have known := (Gen.C55_generated hf hd false).1.1 ⟨s, hb⟩
  rw [C79_service hn hok hr]
  refine Intro.C64_answers (typeOf := typeOf) (P := P) (user := { user with operations := m.find }) hf hd hq hb hf' hv ⟨hval, ?_, ?_, ?_⟩ h hfr hsup hname hsub validated
  · exact C79_names hn hh.objects h1 h2 hd known.interfaces hI
  · intro x
    rw [hisq, htq]
  · exact C79_roots np hh hhs ho hdc hdf hd hq hargs hm

end Verif.GenService
