import Verif.GenTypes.Read
import Verif.GenCode.Claims
import Verif.Gen.OrderProps

/-!
# C75: enums and the structures of input objects
-/
namespace Verif.GenTypes
open Verif.Value Verif.Resp Verif.Errors Verif.Text Verif.GenCode
open Verif.Gen (InputField InputType EnumType Ordered)
open Verif.Gen.Service (Types convert convertEnum convertBuiltin Res resolverArguments)
open Verif.Gen.Client (Data)
open Verif.GenText (cpp IsNamespace)
open Verif.Modifiers (Mod)
open Verif.Cpp (Path path word keywords)
open Verif.Cpp.Code (CType Member TypeDecl EnumArgument EnumResult ServiceDecl Function Stmt ReadsTypes ReadsService ReadsFunctions ReadsBody)

variable {print : Double → Str} {read : Str → Double} {T : Types} {ns : Str} {q : Path} {hs : List TypeDecl} {ds : List ServiceDecl}
  {e : EnumType}

/-! ## Looking for a declaration -/

theorem locate_append {α : Type} {pick : ServiceDecl → Option α} {a : List ServiceDecl} (h : ∀ d ∈ a, pick d = none)
    (b : List ServiceDecl) : locate pick (a ++ b) = (locate pick b).map fun r => (a ++ r.1, r.2) := by
  induction a with
  | nil => cases h : locate pick b <;> simp [h]
  | cons d a ih =>
    rw [List.cons_append, locate, h d (by simp), ih fun d hd => h d (by simp [hd])]
    cases locate pick b <;> rfl

theorem locate_none {α : Type} {pick : ServiceDecl → Option α} {a : List ServiceDecl} (h : ∀ d ∈ a, pick d = none) :
    locate pick a = none := by
  have := locate_append h []
  simpa [locate] using this

theorem mem_service {d : ServiceDecl} (h : d ∈ serviceS print q T) :
    (∃ e ∈ T.enums, d ∈ enumS q e) ∨ ∃ i ∈ T.inputs, d = .function (inputF (numberE print) q i) := by
  rw [serviceS, List.mem_append, List.mem_flatMap, List.mem_map] at h
  rcases h with h | ⟨i, hi, rfl⟩
  · exact .inl h
  · exact .inr ⟨i, hi, rfl⟩

theorem type_ne {e e' : EnumType} (h : cpp e'.type ≠ cpp e.type) : typePath q e'.type ≠ typePath q e.type :=
  fun hc => h (typePath_inj hc)

/-- An enum, and those before it, which have other names. -/
theorem split (ht : TypesOk print read T q) (he : e ∈ T.enums) :
    ∃ a b, T.enums = a ++ e :: b ∧ ∀ e' ∈ a, cpp e'.type ≠ cpp e.type := by
  obtain ⟨a, b, hab⟩ := List.append_of_mem he
  refine ⟨a, b, hab, fun e' he' hc => ?_⟩
  have hd := ht.distinct
  rw [List.map_append, List.nodup_append] at hd
  have := hd.1
  rw [hab, List.map_append, List.map_append, List.nodup_append] at this
  exact this.2.2 _ (List.mem_map_of_mem (List.mem_map_of_mem he')) (cpp e.type) (by simp) hc

theorem array_find {a : List EnumType} (h : ∀ e' ∈ a, cpp e'.type ≠ cpp e.type) (more : List ServiceDecl) :
    array? (a.flatMap (enumS q) ++ (.array e.values.length (namesVar e) (e.values.map (·.value)) :: more)) (namesVar e) =
      some (e.values.map (·.value)) := by
  unfold array?
  rw [List.findSome?_append, List.findSome?_eq_none_iff.2]
  · simp
  · intro d hd
    obtain ⟨e', he', hd⟩ := List.mem_flatMap.1 hd
    have hne : ¬ namesVar e' = namesVar e := fun hc => h e' he' (List.append_cancel_left hc)
    simp only [enumS, List.mem_cons, List.not_mem_nil, or_false] at hd
    rcases hd with rfl | rfl | rfl <;> simp [hne]

theorem argument_eq (ht : TypesOk print read T q) (he : e ∈ T.enums) : ∃ before,
    argument (serviceS print q T) (typePath q e.type) = some (runArgument before (argumentF q e)) ∧
      array? before (namesVar e) = some (e.values.map (·.value)) := by
  obtain ⟨a, b, hab, hne⟩ := split ht he
  refine ⟨a.flatMap (enumS q) ++ [.array e.values.length (namesVar e) (e.values.map (·.value))], ?_, array_find hne []⟩
  unfold argument
  rw [serviceS, hab, List.flatMap_append, List.flatMap_cons, List.append_assoc, locate_append]
  · simp [enumS, locate, isArgument, argumentF]
  · intro d hd
    obtain ⟨e', he', hd⟩ := List.mem_flatMap.1 hd
    have hne := type_ne (q := q) (hne e' he')
    simp only [enumS, List.mem_cons, List.not_mem_nil, or_false] at hd
    rcases hd with rfl | rfl | rfl <;> simp [isArgument, argumentF, hne]

theorem result_eq (ht : TypesOk print read T q) (he : e ∈ T.enums) : ∃ before,
    result (serviceS print q T) (typePath q e.type) = some (runResult before (resultF q e)) ∧
      array? before (namesVar e) = some (e.values.map (·.value)) := by
  obtain ⟨a, b, hab, hne⟩ := split ht he
  refine ⟨a.flatMap (enumS q) ++ [.array e.values.length (namesVar e) (e.values.map (·.value)), .argument (argumentF q e)], ?_,
    array_find hne _⟩
  unfold result
  rw [serviceS, hab, List.flatMap_append, List.flatMap_cons, List.append_assoc, locate_append]
  · simp [enumS, locate, isResult, resultF]
  · intro d hd
    obtain ⟨e', he', hd⟩ := List.mem_flatMap.1 hd
    have hne := type_ne (q := q) (hne e' he')
    simp only [enumS, List.mem_cons, List.not_mem_nil, or_false] at hd
    rcases hd with rfl | rfl | rfl <;> simp [isResult, resultF, hne]

theorem argument_none {t : Path} (h : ∀ e ∈ T.enums, typePath q e.type ≠ t) : argument (serviceS print q T) t = none := by
  unfold argument
  rw [locate_none, Option.map_none]
  intro d hd
  rcases mem_service hd with ⟨e, he, hd⟩ | ⟨i, hi, rfl⟩
  · simp only [enumS, List.mem_cons, List.not_mem_nil, or_false] at hd
    rcases hd with rfl | rfl | rfl <;> simp [isArgument, argumentF, h e he]
  · rfl

theorem findSome_mid {α β : Type} {f : α → Option β} {a b : List α} {x : α} (h : ∀ y ∈ a, f y = none) {r : β} (hx : f x = some r) :
    (a ++ x :: b).findSome? f = some r := by
  rw [List.findSome?_append, List.findSome?_eq_none_iff.2 h]
  simp [hx]

theorem enumerator_eq (ht : TypesOk print read T q) (he : e ∈ T.enums) (i : Nat) :
    enumerator (headerD T) (cpp e.type) i = (e.values[i]?).map (·.value) := by
  have hd := ht.distinct
  rw [List.map_append, List.nodup_append, List.map_map, List.map_map] at hd
  unfold enumerator
  have hu : ∀ e' ∈ T.enums, cpp e'.type = cpp e.type → e' = e := fun e' he' hc => List.inj_on_of_nodup_map hd.1 he' he hc
  cases hv : e.values[i]? with
  | none =>
    rw [List.findSome?_eq_none_iff.2]
    · rfl
    · intro d hd
      simp only [headerD, List.mem_append, List.mem_map] at hd
      rcases hd with ⟨e', he', rfl⟩ | ⟨t, ht, rfl⟩
      · simp only [enumD]
        split
        · rename_i hc; rw [hu e' he' hc, List.getElem?_map, hv]; rfl
        · rfl
      · rfl
  | some v =>
    obtain ⟨a, b, hab, hne⟩ := split ht he
    rw [headerD, hab, List.map_append, List.map_cons, List.append_assoc, List.cons_append]
    refine findSome_mid ?_ ?_
    · intro d hd
      obtain ⟨e', he', rfl⟩ := List.mem_map.1 hd
      simp [enumD, hne e' he']
    · simp [enumD, hv]

/-! ## The text -/

/-- A C++ compiler reads the header and the source in one way. -/
theorem C75_code (hn : IsNamespace ns q) (h : HeaderOk T) (ht : TypesOk print read T q) :
    (∃! hs, ReadsTypes (headerText T) hs) ∧ ∃! ds, ReadsService (serviceText print ns T) ds :=
  ⟨⟨_, reads_header h ht, fun _ k => k.unique (reads_header h ht)⟩,
   ⟨_, reads_service hn h ht, fun _ k => k.unique (reads_service hn h ht)⟩⟩

/-! ## Enums -/

/-- The enumerators are the values of the schema, in their order. -/
theorem C75_enumerators (h : HeaderOk T) (ht : TypesOk print read T q) (hh : ReadsTypes (headerText T) hs) (he : e ∈ T.enums)
    (i : Nat) : enumerator hs (cpp e.type) i = (e.values[i]?).map (·.value) := by
  rw [hh.unique (reads_header h ht)]
  exact enumerator_eq ht he i

theorem message_cString (h : IsName e.type) : cString (message e) = str "not a valid " ++ e.type ++ str " value" := by
  have hz : ∀ {s : Str}, cString s = s → (0 : Byte) ∉ s := by
    intro s hs hm
    have : ∀ (s : Str), (0 : Byte) ∉ cString s := by
      intro s
      unfold cString
      induction s with
      | nil => simp
      | cons c s ih =>
        rw [List.takeWhile_cons]
        split
        · rename_i hc
          rw [List.mem_cons, not_or]
          exact ⟨fun h0 => by simp [← h0] at hc, ih⟩
        · simp
    exact this s (by rw [hs]; exact hm)
  rw [cString_ok]
  · rfl
  · rw [message, List.mem_append, List.mem_append]
    rintro ((hc | hc) | hc)
    · exact absurd hc (by decide)
    · exact hz (name_cString h) hc
    · exact absurd hc (by decide)

/-- The number of a name. -/
def numberOf (e : EnumType) (s : Str) : Out Nat :=
  match (e.values.map (·.value)).findIdx? fun n => decide (n = s) with
  | none => .throws (.message (str "not a valid " ++ e.type ++ str " value"))
  | some i => .ok i

theorem run_argument (h : HeaderOk T) (ht : TypesOk print read T q) (he : e ∈ T.enums) {before : List ServiceDecl}
    (hb : array? before (namesVar e) = some (e.values.map (·.value))) (v : Resp) :
    runArgument before (argumentF q e) v =
      match enumText? v with
      | none => .throws (.message (str "not a valid " ++ e.type ++ str " value"))
      | some s => numberOf e s := by
  have hm := message_cString (h.enum e he).1
  unfold runArgument numberOf
  simp only [argumentF, and_self, if_true, hb, hm]
  cases enumText? v <;> rfl

/-- The conversion of an argument gives the enumerator with the name which is in the request, and throws if there is none. -/
theorem C75_argument (hn : IsNamespace ns q) (h : HeaderOk T) (ht : TypesOk print read T q) (hh : ReadsTypes (headerText T) hs)
    (hd : ReadsService (serviceText print ns T) ds) (he : e ∈ T.enums) :
    ∃ c, argument ds (typePath q e.type) = some c ∧ ∀ v,
      (∀ i, c v = .ok i ↔ ∃ s, enumText? v = some s ∧ enumerator hs (cpp e.type) i = some s) ∧
      ((¬ ∃ s i, enumText? v = some s ∧ enumerator hs (cpp e.type) i = some s) →
        c v = .throws (.message (str "not a valid " ++ e.type ++ str " value"))) := by
  rw [hd.unique (reads_service hn h ht)]
  simp only [C75_enumerators h ht hh he]
  obtain ⟨before, hc, hb⟩ := argument_eq ht he
  refine ⟨_, hc, fun v => ?_⟩
  rw [run_argument h ht he hb v]
  have hnd := h.values e he
  simp only [← List.getElem?_map]
  cases hv : enumText? v with
  | none => simp
  | some s =>
    simp only []
    unfold numberOf
    have key : ∀ i, (e.values.map (·.value)).findIdx? (fun n => decide (n = s)) = some i ↔ (e.values.map (·.value))[i]? = some s := by
      intro i
      rw [List.findIdx?_eq_some_iff_getElem]
      constructor
      · rintro ⟨hi, h1, -⟩
        rw [List.getElem?_eq_getElem hi]; simpa using h1
      · intro hi
        obtain ⟨hl, hi'⟩ := List.getElem?_eq_some_iff.1 hi
        refine ⟨hl, by simpa using hi', fun j hj => ?_⟩
        simp only [decide_eq_true_eq]
        intro hc
        have := (List.Nodup.getElem_inj_iff hnd).1 (hc.trans hi'.symm)
        omega
    cases hf : (e.values.map (·.value)).findIdx? (fun n => decide (n = s)) with
    | none =>
      have hno : ∀ i, (e.values.map (·.value))[i]? ≠ some s := fun i hi => by rw [← key, hf] at hi; exact absurd hi (by simp)
      refine ⟨fun i => ⟨fun hc => by simp at hc, ?_⟩, fun _ => rfl⟩
      rintro ⟨s', hs', hi⟩
      cases hs'
      exact absurd hi (hno i)
    | some j =>
      have hj := (key j).1 hf
      refine ⟨fun i => ⟨fun hc => ?_, ?_⟩, fun hc => absurd ⟨s, j, rfl, hj⟩ hc⟩
      · simp only [Out.ok.injEq] at hc
        exact ⟨s, rfl, hc ▸ hj⟩
      · rintro ⟨s', hs', hi⟩
        cases hs'
        rw [← key, hf] at hi
        simpa using hi

/-- The conversion of a result gives the name of the enumerator. -/
theorem C75_result (hn : IsNamespace ns q) (h : HeaderOk T) (ht : TypesOk print read T q) (hh : ReadsTypes (headerText T) hs)
    (hd : ReadsService (serviceText print ns T) ds) (he : e ∈ T.enums) :
    ∃ c, result ds (typePath q e.type) = some c ∧
      ∀ i s, enumerator hs (cpp e.type) i = some s → c i = .ok (.enumValue s) := by
  rw [hd.unique (reads_service hn h ht)]
  simp only [C75_enumerators h ht hh he]
  obtain ⟨before, hc, hb⟩ := result_eq ht he
  refine ⟨_, hc, fun i s hi => ?_⟩
  rw [← List.getElem?_map] at hi
  unfold runResult
  simp only [resultF, and_self, if_true, hb, hi]

/-- What is answered for an enumerator is understood as this enumerator, and what is understood as an enumerator is what is answered
for it. -/
theorem C75_roundtrip (hn : IsNamespace ns q) (h : HeaderOk T) (ht : TypesOk print read T q) (hh : ReadsTypes (headerText T) hs)
    (hd : ReadsService (serviceText print ns T) ds) (he : e ∈ T.enums) :
    ∃ a r, argument ds (typePath q e.type) = some a ∧ result ds (typePath q e.type) = some r ∧
      (∀ i, (enumerator hs (cpp e.type) i).isSome → ∃ w, r i = .ok w ∧ a w = .ok i) ∧
      ∀ v i, a v = .ok i → ∃ s, enumText? v = some s ∧ r i = .ok (.enumValue s) := by
  obtain ⟨a, ha, ha'⟩ := C75_argument hn h ht hh hd he
  obtain ⟨r, hr, hr'⟩ := C75_result hn h ht hh hd he
  refine ⟨a, r, ha, hr, fun i hi => ?_, fun v i hv => ?_⟩
  · obtain ⟨s, hs⟩ := Option.isSome_iff_exists.1 hi
    exact ⟨_, hr' i s hs, ((ha' _).1 i).2 ⟨s, rfl, hs⟩⟩
  · obtain ⟨s, h1, h2⟩ := ((ha' v).1 i).1 hv
    exact ⟨s, h1, hr' i s h2⟩

/-! ## Input objects -/

theorem functions_eq : functions (serviceS print q T) = T.inputs.map (inputF (numberE print) q) := by
  unfold functions
  rw [serviceS, List.filterMap_append, List.filterMap_eq_nil_iff.2, List.nil_append, List.filterMap_map]
  · exact congrFun (List.filterMap_eq_map (f := inputF (numberE print) q)) T.inputs
  · intro d hd
    obtain ⟨e, he, hd⟩ := List.mem_flatMap.1 hd
    simp only [enumS, List.mem_cons, List.not_mem_nil, or_false] at hd
    rcases hd with rfl | rfl | rfl <;> rfl

theorem known_eq (t : Path) : knownConversions T q t =
    match libraryConversions t with
    | some c => some c
    | none => (T.enums.find? fun e => typePath q e.type = t).map fun e v => .of (convertEnum T e.type v) := by
  unfold knownConversions libraryConversions
  repeat' split
  all_goals try rfl
  all_goals simp_all

theorem values_eq (ht : TypesOk print read T q) (he : e ∈ T.enums) : T.values e.type = e.values.map (·.value) := by
  have hd := ht.distinct
  rw [List.map_append, List.nodup_append, List.map_map, List.map_map] at hd
  unfold Types.values
  obtain ⟨e', he'⟩ : ∃ e', T.enums.find? (fun e' => e'.type == e.type) = some e' := by
    rw [← Option.isSome_iff_exists, List.find?_isSome]
    exact ⟨e, he, by simp⟩
  have h1 := List.find?_some he'
  have : e' = e := List.inj_on_of_nodup_map hd.1 (List.mem_of_find?_eq_some he') he (by simp at h1; simp [h1])
  rw [he', this]
  rfl

/-- The conversion of an enum of C58 and C59. -/
theorem argument_convertEnum (h : HeaderOk T) (ht : TypesOk print read T q) (he : e ∈ T.enums) {before : List ServiceDecl}
    (hb : array? before (namesVar e) = some (e.values.map (·.value))) (v : Resp) :
    (runArgument before (argumentF q e) v).map Data.enum = Out.of (.of (convertEnum T e.type v)) := by
  rw [run_argument h ht he hb v]
  have hk : ∀ s, (numberOf e s).map Data.enum = Out.of (.of (match (e.values.map (·.value)).findIdx? (· == s) with
        | some i => .ok (.enum i)
        | none => .error (.message (str "not a valid " ++ e.type ++ str " value")))) := by
    intro s
    unfold numberOf
    have : (fun n => decide (n = s)) = (· == s) := by funext n; by_cases h : n = s <;> simp [h]
    rw [this]
    cases List.findIdx? (· == s) (e.values.map (·.value)) <;> rfl
  unfold convertEnum
  rw [values_eq ht he]
  cases v with
  | string s j => cases j <;> [rfl; exact hk s]
  | enumValue s => exact hk s
  | _ => rfl

theorem convertAll_eq (h : HeaderOk T) (ht : TypesOk print read T q) (fields : Path → List Str) (depth : Nat) :
    convertAll read fields (serviceS print q T) depth =
      convertWith read (knownConversions T q) fields (T.inputs.map (inputF (numberE print) q)) depth := by
  induction depth using Nat.strongRecOn with
  | _ depth ih =>
  funext t v
  rw [convertAll.eq_def, convertWith.eq_def]
  simp only [known_eq]
  cases hl : libraryConversions t with
  | some c => rfl
  | none =>
    cases hf : T.enums.find? (fun e => typePath q e.type = t) with
    | some e =>
      have he := List.mem_of_find?_eq_some hf
      have hp : typePath q e.type = t := by simpa using List.find?_some hf
      obtain ⟨before, hc, hb⟩ := argument_eq ht he
      subst hp
      simp only [hc, Option.map_some]
      exact argument_convertEnum h ht he hb v
    | none =>
      rw [argument_none fun e he hc => by
        have := List.find?_eq_none.1 hf e he
        simp [hc] at this, functions_eq]
      simp only [Option.map_none]
      cases List.find? (fun f => decide (f.c = word (str "ModifiedArgument") ∧ f.t = t ∧ f.f = str "convert"))
        (T.inputs.map (inputF (numberE print) q)) with
      | none => rfl
      | some f =>
        cases depth with
        | zero => rfl
        | succ depth => simp only [ih depth (by omega)]

/-- All the conversions which are written, with those of the library, give for all fields and all values what
`Verif.Gen.Service.convert` says (C58, C59). -/
theorem C75_convert (hn : IsNamespace ns q) (h : HeaderOk T) (ht : TypesOk print read T q)
    (hd : ReadsService (serviceText print ns T) ds) (depth : Nat) (f : InputField) (hk : TypeKnown T f) (v : Resp) :
    convertAll read (structures T q) ds depth (accessPath q f) v = Out.of (convert T depth f v) := by
  rw [hd.unique (reads_service hn h ht), convertAll_eq h ht]
  exact convert_run ht depth f hk v

/-- With them, the first part of a resolver declares a variable for every argument, with the value of which C58 and C59 say, or throws
the exception of which they say so. -/
theorem C75_arguments (hn : IsNamespace ns q) (h : HeaderOk T) (ht : TypesOk print read T q)
    (hd : ReadsService (serviceText print ns T) ds) {fields : List InputField} (ha : FieldsOk print read fields)
    (hk : ∀ f ∈ fields, TypeKnown T f) {ss : List Stmt} (hs : ReadsBody (argumentsText print ns fields) ss)
    (depth : Nat) (arguments : Members) :
    let L : Library := ⟨read, convertAll read (structures T q) ds depth⟩
    let E : Scope := Scope.empty.set (str "params") (.params (.map arguments))
    match resolverArguments T depth fields arguments with
    | .ok as => ∃ E', execs L ss E = .ok (none, E') ∧
        List.Forall₂ (fun f a => a.1 = f.name ∧ E' (str "arg" ++ capital f) = some (.arg a.2)) fields as
    | .error e => execs L ss E = .throws e
    | .depth => execs L ss E = .depth := by
  rw [hd.unique (reads_service hn h ht), convertAll_eq h ht]
  exact C73_arguments hn ht (reads_inputs hn ht) ha hk hs depth arguments

/-! ## The structures -/

theorem leaf_argumentType (u : Path) (ms : List Mod) : CType.leaf (argumentType u ms) = u := by
  induction ms with
  | nil => rfl
  | cons m ms ih => cases m <;> exact ih

theorem inNamespace_argumentType (u : Path) (ms : List Mod) : CType.inNamespace q (argumentType u ms) =
    argumentType (if u.tail = [] then ⟨q.head, q.tail ++ [u.head]⟩ else u) ms := by
  induction ms with
  | nil => rfl
  | cons m ms ih => cases m <;> simp only [argumentType, CType.inNamespace, ih]

theorem builtin_tail (type : Str) : (builtinPath type).tail ≠ [] := by
  unfold builtinPath
  repeat' split
  all_goals decide

theorem leaf_access (f : InputField) :
    (if (leafPath f).tail = [] then ⟨q.head, q.tail ++ [(leafPath f).head]⟩ else leafPath f) = accessPath q f := by
  unfold leafPath accessPath
  cases f.fieldType with
  | builtin => exact if_neg (builtin_tail _)
  | scalar => exact if_neg (by decide : valueT.tail ≠ [])
  | enum => rfl
  | input => rfl

theorem members_eq (ht : TypesOk print read T q) {i : InputType} (hi : i ∈ T.inputs) :
    members (headerD T) (cpp i.type) = some (i.fields.map memberD) := by
  obtain ⟨a, b, hab⟩ := List.append_of_mem hi
  have hd := ht.distinct
  rw [List.map_append, List.nodup_append, List.map_map, List.map_map] at hd
  have := hd.2.1
  rw [hab, List.map_append, List.nodup_append] at this
  unfold members
  rw [headerD, hab, List.map_append, List.map_cons, ← List.append_assoc]
  refine findSome_mid ?_ (by simp [structD])
  intro d hd
  rcases List.mem_append.1 hd with hd | hd <;> obtain ⟨x, hx, rfl⟩ := List.mem_map.1 hd
  · rfl
  · have hne : ¬ cpp x.type = cpp i.type := fun hc => this.2.2 (cpp x.type) (List.mem_map.2 ⟨x, hx, rfl⟩) (cpp i.type) (by simp) hc
    simp [structD, hne]

/-- The structure of an input object has a member for every field, in the order in which the conversion fills them; its name is that
of the field, and its type is that which the conversion of the field returns. -/
theorem C75_structs (h : HeaderOk T) (ht : TypesOk print read T q) (hh : ReadsTypes (headerText T) hs) {i : InputType}
    (hi : i ∈ T.inputs) :
    structures T q (typePath q i.type) = i.fields.map (·.name) ∧
    ∃ ms, members hs (cpp i.type) = some ms ∧
      ms.map (fun m => (m.name, CType.inNamespace q m.type)) =
        i.fields.map fun f => (cpp f.name, argumentType (accessPath q f) f.modifiers) := by
  rw [hh.unique (reads_header h ht)]
  refine ⟨?_, _, members_eq ht hi, ?_⟩
  · have hd := ht.distinct
    rw [List.map_append, List.nodup_append, List.map_map, List.map_map] at hd
    unfold structures
    obtain ⟨j, hj⟩ : ∃ j, T.inputs.find? (fun j => typePath q j.type = typePath q i.type) = some j := by
      rw [← Option.isSome_iff_exists, List.find?_isSome]
      exact ⟨i, hi, by simp⟩
    have h1 := List.find?_some hj
    have : j = i := List.inj_on_of_nodup_map hd.2.1 (List.mem_of_find?_eq_some hj) hi (typePath_inj (ns := q) (by simpa using h1))
    rw [hj, this]
    rfl
  · rw [List.map_map]
    refine List.map_congr_left fun f _ => ?_
    simp only [Function.comp, memberD, inNamespace_argumentType, leaf_access]

theorem leaf_word {f : InputField} (h : (leafPath f).tail = []) :
    (f.fieldType = .enum ∨ f.fieldType = .input) ∧ (leafPath f).head = cpp f.type := by
  unfold leafPath at h ⊢
  cases hk : f.fieldType with
  | builtin => rw [hk] at h; exact absurd h (builtin_tail _)
  | scalar => rw [hk] at h; exact absurd h (by decide : valueT.tail ≠ [])
  | enum => exact ⟨.inl rfl, rfl⟩
  | input => exact ⟨.inr rfl, rfl⟩

/-- The header compiles if the input objects are in the order of C42. -/
theorem C75_compiles (h : HeaderOk T) (ht : TypesOk print read T q) (hh : ReadsTypes (headerText T) hs)
    (ho : Ordered (·.type) (·.needs) T.inputs) : Compiles hs := by
  rw [hh.unique (reads_header h ht)]
  refine ⟨?_, ?_, ?_, ?_, ?_⟩
  · have hd := ht.distinct
    have : (headerD T).map declName = (T.enums.map (·.type) ++ T.inputs.map (·.type)).map cpp := by
      simp [headerD, Function.comp_def, declName, enumD, structD]
    rwa [this]
  · intro n values hm
    rcases List.mem_append.1 hm with hm | hm <;> obtain ⟨x, hx, hx'⟩ := List.mem_map.1 hm
    · simp only [enumD, TypeDecl.enumClass.injEq] at hx'
      rw [← hx'.2]
      exact h.values x hx
    · simp [structD] at hx'
  · intro n ms hm
    rcases List.mem_append.1 hm with hm | hm <;> obtain ⟨x, hx, hx'⟩ := List.mem_map.1 hm
    · simp [enumD] at hx'
    · simp only [structD, TypeDecl.struct.injEq] at hx'
      rw [← hx'.2, List.map_map]
      exact h.members x hx
  · intro pre n ms post hp m hm htail
    rw [headerD, List.append_eq_append_iff] at hp
    -- the structure is behind the enums
    have hs : ∃ a i b, T.inputs = a ++ i :: b ∧ pre = T.enums.map enumD ++ a.map structD ∧ structD i = .struct n ms := by
      rcases hp with ⟨c, rfl, hc⟩ | ⟨c, hc1, hc2⟩
      · rw [List.map_eq_append_iff] at hc
        obtain ⟨a, r, h1, rfl, hr⟩ := hc
        obtain ⟨i, b, rfl, h3, -⟩ := List.map_eq_cons_iff.1 hr
        exact ⟨a, i, b, h1, rfl, h3⟩
      · cases c with
        | nil =>
          rw [List.nil_append] at hc2
          obtain ⟨i, b, h1, h3, -⟩ := List.map_eq_cons_iff.1 hc2.symm
          exact ⟨[], i, b, h1, by simp [hc1], h3⟩
        | cons d c =>
          simp only [List.cons_append, List.cons.injEq] at hc2
          have : d ∈ T.enums.map enumD := by rw [hc1]; simp
          rw [← hc2.1] at this
          obtain ⟨x, _, hx⟩ := List.mem_map.1 this
          simp [enumD] at hx
    obtain ⟨a, i, b, hab, rfl, hi⟩ := hs
    simp only [structD, TypeDecl.struct.injEq] at hi
    rw [← hi.2] at hm
    obtain ⟨f, hf, rfl⟩ := List.mem_map.1 hm
    simp only [memberD, leaf_argumentType] at htail ⊢
    obtain ⟨hk, he⟩ := leaf_word htail
    rw [he]
    have hii : i ∈ T.inputs := by rw [hab]; simp
    have hkn := ht.known i hii f hf
    simp only [List.map_append, List.map_map, List.mem_append]
    rcases hk with hk | hk
    · obtain ⟨e, he, het⟩ : ∃ e ∈ T.enums, e.type = f.type := by simpa [TypeKnown, hk] using hkn
      exact .inl (List.mem_map.2 ⟨e, he, by simp [declName, enumD, het]⟩)
    · obtain ⟨j, hj, hjt⟩ := ho a i b hab f.type ⟨f, hf, hk, rfl⟩
      exact .inr (List.mem_map.2 ⟨j, hj, by simp [declName, structD, hjt]⟩)
  · intro n ms hm m hmm htail
    rcases List.mem_append.1 hm with hm | hm <;> obtain ⟨x, hx, hx'⟩ := List.mem_map.1 hm
    · simp [enumD] at hx'
    · simp only [structD, TypeDecl.struct.injEq] at hx'
      rw [← hx'.2] at hmm ⊢
      obtain ⟨f, hf, rfl⟩ := List.mem_map.1 hmm
      simp only [memberD, leaf_argumentType] at htail ⊢
      obtain ⟨hk, he⟩ := leaf_word htail
      rw [he, List.map_map]
      exact h.meaning x hx f hf hk

end Verif.GenTypes
