import Verif.Sound.Claims
import Verif.Validation.Examples
import Verif.Gen.ParseExamples
import Verif.Gen.ResponseExamples

/-!
# Examples for C60 and C61

A service for the schema `pets`, and a request to it.
-/
namespace Verif.Sound.Examples
open Verif.Value Verif.Resp Verif.Errors Verif.Ast Verif.Exec Verif.Sound
open Verif.Validation (Schema FieldDef InputValue baseName findArgument findValue VariableTypes findVariable TypeDef)
open Verif.Validation.Spec
open Verif.Validation.Examples
open Verif.Request (Service)

/-! ## The schema -/

theorem subtype_refl {S : Schema} (τ : TypeRef) : Subtype S τ τ := by
  induction τ with
  | named n => exact .same
  | list t ih => exact .list ih
  | nonNull t ih => exact .nonNull ih

/-- The fields of a type. -/
theorem findField_cases {S : Schema} {type name : Str} {d : FieldDef} (h : S.findField type name = some d) :
    ∃ t, S.find type = some t ∧ d.name = name ∧
      (d = ⟨str "__typename", .nonNull (.named (str "String")), []⟩ ∨ d ∈ t.fields ∨
        (type = S.query ∧ (d = ⟨str "__schema", .nonNull (.named (str "__Schema")), []⟩ ∨
          d = ⟨str "__type", .named (str "__Type"), [⟨str "name", .nonNull (.named (str "String")), []⟩]⟩))) := by
  unfold Schema.findField at h
  cases hf : S.find type with
  | none => rw [hf] at h; cases h
  | some t =>
    rw [hf] at h
    refine ⟨t, rfl, ?_⟩
    simp only at h
    split at h
    · rename_i hn
      cases h
      exact ⟨rfl, .inl (by rw [hn])⟩
    · split at h
      · rename_i hn
        simp only [Bool.and_eq_true, decide_eq_true_eq, beq_iff_eq] at hn
        cases h
        exact ⟨rfl, .inr (.inr ⟨hn.2, .inl (by rw [hn.1.1])⟩)⟩
      · split at h
        · rename_i hn
          simp only [Bool.and_eq_true, decide_eq_true_eq, beq_iff_eq] at hn
          cases h
          exact ⟨rfl, .inr (.inr ⟨hn.2, .inr (by rw [hn.1.1])⟩)⟩
        · have h1 := List.mem_of_find?_eq_some h
          have h2 := List.find?_some h
          simp only [Bool.and_eq_true, beq_iff_eq] at h2
          exact ⟨h2.1.1, .inr (.inl (List.mem_reverse.mp h1))⟩

theorem matching_mem {type object : Str} (h : object ∈ pets.matching type) :
    (type = str "Pet" ∧ (object = str "Dog" ∨ object = str "Cat")) ∨
    (object = type ∧ (type = str "Dog" ∨ type = str "Cat" ∨ type = str "Query")) := by
  have key : ∀ e ∈ pets.types, ∀ object ∈ pets.matching e.1,
      (e.1 = str "Pet" ∧ (object = str "Dog" ∨ object = str "Cat")) ∨
      (object = e.1 ∧ (e.1 = str "Dog" ∨ e.1 = str "Cat" ∨ e.1 = str "Query")) := by decide +kernel
  cases hf : pets.find type with
  | none => simp [Schema.matching, hf] at h
  | some t => exact key (type, t) ((C48_find_iff pets_unique).mp hf) object h

theorem pets_implements : Implements pets where
  objects := by
    intro type object h
    rcases matching_mem h with ⟨rfl, rfl | rfl⟩ | ⟨rfl, rfl | rfl | rfl⟩ <;> rfl
  fields := by
    intro type object name def_ hm hf
    have same : pets.findField object name = some def_ := by
      rcases matching_mem hm with ⟨rfl, ho⟩ | ⟨rfl, _⟩
      · obtain ⟨t, ht, hn, hd⟩ := findField_cases hf
        have : t = { kind := .interface, fields := petFields, possibleTypes := [str "Dog", str "Cat"] } := by
          have e : pets.find (str "Pet") = some { kind := .interface, fields := petFields, possibleTypes := [str "Dog", str "Cat"] } := by
            rfl
          rw [e] at ht
          exact (Option.some.inj ht).symm
        subst this
        simp only [petFields, List.mem_cons, List.not_mem_nil, or_false] at hd
        rcases hd with rfl | (rfl | rfl) | ⟨hq, _⟩
        · subst hn; rcases ho with rfl | rfl <;> rfl
        · subst hn; rcases ho with rfl | rfl <;> rfl
        · subst hn; rcases ho with rfl | rfl <;> rfl
        · exact absurd hq (by decide)
      · exact hf
    exact ⟨def_, same, subtype_refl _, fun arg a ha => ⟨a, ha, rfl, id⟩, fun arg b hb hr hd => ⟨b, hb, hr, hd⟩⟩

theorem pets_standard : Standard pets where
  boolean := by rfl
  conditions := by
    rintro name d (rfl | rfl) h
    · have e : pets.findDirective (str "skip") = some ⟨str "skip", [.field, .fragmentSpread, .inlineFragment],
        [⟨str "if", required "Boolean", []⟩]⟩ := by rfl
      rw [e] at h
      cases h
      rfl
    · have e : pets.findDirective (str "include") = some ⟨str "include", [.field, .fragmentSpread, .inlineFragment],
        [⟨str "if", required "Boolean", []⟩]⟩ := by rfl
      rw [e] at h
      cases h
      rfl

/-! ## The service -/

/-- The objects: the query object, a dog and a cat. -/
inductive Thing where
  | query | rex | tom

def typeOf : Thing → Str
  | .query => str "Query"
  | .rex => str "Dog"
  | .tom => str "Cat"

/-- An accessor which returns a value. -/
def gives (t : OutType) (x : Out Thing) : Resolver Str Thing where
  type := t
  access := fun _ => .pure (.value x)

/-- One which returns a future. -/
def later (t : OutType) (x : Out Thing) : Resolver Str Thing where
  type := t
  access := fun _ => .pure (.future [] (.ok x))

def aPet (x : Thing) : Out Thing := .present (.object (some x))

/-- `Query.find`: the dog, if the name is Rex. -/
def findPet : Resolver Str Thing where
  type := .nullable (.object true)
  access := fun params => .pure (.value (match params.arguments.find (str "name") with
    | some (.string s _) => if s = str "Rex" then aPet .rex else .absent
    | _ => .absent))

/-- `Cat.lives`: fails if `shy`. -/
def lives (shy : Bool) : Resolver Str Thing where
  type := .nullable .leaf
  access := fun _ => if shy then .throw (.schema [{ message := str "none of your business" }]) else
    .pure (.value (.present (.leaf (.int 9))))

/-- The accessors of the objects. -/
def accessors (shy : Bool) : Thing → List (Str × Resolver Str Thing)
  | .query => [(str "__typename", gives .leaf (.leaf (.string (str "Query") false))),
      (str "__schema", gives .leaf (.leaf (.boolean true))), (str "__type", gives (.nullable .leaf) .absent),
      (str "pet", gives (.nullable (.object true)) (aPet .tom)), (str "dog", gives (.nullable (.object false)) (aPet .rex)),
      (str "find", findPet)]
  | .rex => [(str "__typename", gives .leaf (.leaf (.string (str "Dog") false))),
      (str "name", later .leaf (.leaf (.string (str "Rex") false))), (str "friend", later (.nullable (.object true)) (aPet .tom)),
      (str "barks", gives (.nullable .leaf) (.present (.leaf (.boolean true)))),
      (str "best", gives (.nullable (.object true)) .absent)]
  | .tom => [(str "__typename", gives .leaf (.leaf (.string (str "Cat") false))),
      (str "name", gives .leaf (.leaf (.string (str "Tom") false))), (str "friend", gives (.nullable (.object true)) .absent),
      (str "lives", lives shy), (str "best", gives (.nullable (.object true)) (aPet .tom))]

def impl (shy : Bool) : Impl Str Thing where
  typeNames := fun x => match x with
    | .query => [str "Query"]
    | .rex => [str "Pet", str "Dog"]
    | .tom => [str "Pet", str "Cat"]
  resolver := fun x name => ((accessors shy x).find? fun e => e.1 == name).map (·.2)
  beginSet := fun _ _ => .pure ()
  endSet := fun _ _ => .pure ()

def service (shy : Bool) : Service Str Thing where
  impl := impl shy
  operations := fun type => if type = str "query" then some (some .query) else none
  validate := fun doc => (errors doc).map fun m => { message := m }
  atoiOverflow := fun n => n

/-- The messages of the service. -/
def messages (shy : Bool) (m : Str) : Prop :=
  match shy with
  | true => m = str "none of your business"
  | false => False

/-- Accessors which do not fail. -/
theorem gives_ok {P : Str → Prop} {def_ : FieldDef} {t : OutType} {x : Out Thing} (ht : StaticType pets def_.type t)
    (hx : ValueOf pets typeOf def_.type x) {r : Resolver Str Thing} (hr : r = gives t x ∨ r = later t x) :
    StaticType pets def_.type r.type ∧
    ∀ params, ArgumentsInhabit pets def_.arguments params.arguments →
      (∀ x, (r.access params).result = .error x → Throws P x) ∧
      (∀ x, (r.access params).result = .ok (.value x) → ValueOf pets typeOf def_.type x) ∧
      (∀ later x, (r.access params).result = .ok (.future later (.ok x)) → ValueOf pets typeOf def_.type x) ∧
      (∀ later x, (r.access params).result = .ok (.future later (.error x)) → Throws P x) := by
  rcases hr with rfl | rfl
  · refine ⟨ht, fun params _ => ⟨nofun, ?_, nofun, nofun⟩⟩
    rintro y ⟨⟩
    exact hx
  · refine ⟨ht, fun params _ => ⟨nofun, nofun, ?_, nofun⟩⟩
    rintro _ y ⟨⟩
    exact hx

theorem static_leaf {n : Str} (h : pets.isComposite n = false) : StaticType pets (.named n) (.nullable .leaf) :=
  .nullable nofun (.leaf h)

theorem static_object {n : Str} {direct : Bool} (h : pets.isComposite n = true) :
    StaticType pets (.named n) (.nullable (.object direct)) :=
  .nullable nofun (.object h)

theorem absent_value {n : Str} : ValueOf pets typeOf (.named n) .absent := .absent nofun

theorem absent_pet : ValueOf pets typeOf (named "Pet") .absent := absent_value

theorem present_value {n : Str} {x : Out Thing} (h : ValueOf pets typeOf (.nonNull (.named n)) x) :
    ValueOf pets typeOf (.named n) (.present x) := .present nofun h

theorem boolean_value (b : Bool) : ValueOf pets typeOf (.nonNull (.named (str "Boolean"))) (.leaf (.boolean b)) :=
  .leaf (d := .boolean b) (by rfl) nofun (.other nofun nofun) (.boolean (.builtin (by decide +kernel) (by simp [Gen.Client.builtinTypes])))

theorem int_value (i : Int) : ValueOf pets typeOf (.nonNull (.named (str "Int"))) (.leaf (.int i)) :=
  .leaf (d := .int i) (by rfl) nofun (.other nofun nofun) (.int (.builtin (by decide +kernel) (by simp [Gen.Client.builtinTypes])))

theorem schema_value : ValueOf pets typeOf (.nonNull (.named (str "__Schema"))) (.leaf (.boolean true)) := by
  refine .leaf (d := .scalar (.boolean true)) (by rfl) nofun (.other nofun nofun) (.custom (.custom (by decide +kernel) ?_))
  intro t ht
  simp only [Gen.Client.builtinTypes, List.mem_cons, List.not_mem_nil, or_false, Prod.mk.injEq] at ht
  rcases ht with ⟨h, _⟩ | ⟨h, _⟩ | ⟨h, _⟩ | ⟨h, _⟩ | ⟨h, _⟩ <;> exact absurd h (by decide)

theorem pet_value (x : Thing) (h : typeOf x ∈ pets.matching (str "Pet")) : ValueOf pets typeOf (named "Pet") (aPet x) :=
  present_value (.object (by rfl) h)

theorem string_value (s : Str) : ValueOf pets typeOf (.nonNull (.named (str "String"))) (.leaf (.string s false)) :=
  .leaf (d := .string s) (by rfl) nofun (.other nofun nofun) (.string (.builtin (by decide +kernel) (by simp [Gen.Client.builtinTypes])))

theorem find_query : pets.find (str "Query") = some { kind := .object, fields := [
      ⟨str "pet", named "Pet", []⟩, ⟨str "dog", named "Dog", []⟩,
      ⟨str "find", named "Pet", [⟨str "name", required "String", []⟩, ⟨str "limit", required "Int", str "10"⟩,
        ⟨str "tags", .list (required "String"), []⟩, ⟨str "opts", named "Opts", []⟩, ⟨str "any", named "Any", []⟩]⟩] } := by rfl
theorem find_dog : pets.find (str "Dog") = some { kind := .object, fields := petFields ++
      [⟨str "barks", named "Boolean", [⟨str "loud", named "Boolean", []⟩]⟩, best] } := by rfl
theorem find_cat : pets.find (str "Cat") = some { kind := .object, fields := petFields ++
      [⟨str "lives", named "Int", []⟩, best] } := by rfl

theorem impl_serves (shy : Bool) : Serves pets (impl shy) typeOf (messages shy) where
  names := by
    intro x name h
    cases x <;> simp only [impl, List.mem_cons, List.not_mem_nil, or_false] at h
    · subst h; decide +kernel
    · rcases h with rfl | rfl <;> decide +kernel
    · rcases h with rfl | rfl <;> decide +kernel
  fields := by
    intro x name def_ h
    obtain ⟨t, ht, hn, hd⟩ := findField_cases h
    subst hn
    cases x with
    | query =>
      rw [typeOf, find_query] at ht
      cases ht
      simp only [List.mem_cons, List.not_mem_nil, or_false] at hd
      rcases hd with rfl | (rfl | rfl | rfl) | ⟨_, rfl | rfl⟩
      · exact ⟨_, rfl, gives_ok (.leaf (by rfl)) (string_value _) (.inl rfl)⟩
      · exact ⟨_, rfl, gives_ok (static_object (by rfl)) (pet_value .tom (by decide +kernel)) (.inl rfl)⟩
      · exact ⟨_, rfl, gives_ok (static_object (by rfl)) (present_value (.object (by rfl) (by decide +kernel))) (.inl rfl)⟩
      · refine ⟨findPet, rfl, static_object (by rfl), fun params _ => ⟨nofun, ?_, nofun, nofun⟩⟩
        intro x hx
        simp only [findPet, Run.pure, Except.ok.injEq, FieldResult.value.injEq] at hx
        subst hx
        split
        · split
          · exact pet_value .rex (by decide +kernel)
          · exact absent_pet
        · exact absent_pet
      · exact ⟨_, rfl, gives_ok (.leaf (by rfl)) schema_value (.inl rfl)⟩
      · exact ⟨_, rfl, gives_ok (static_leaf (by rfl)) absent_value (.inl rfl)⟩
    | rex =>
      rw [typeOf, find_dog] at ht
      cases ht
      simp only [petFields, best, List.mem_cons, List.not_mem_nil, or_false, List.cons_append, List.nil_append] at hd
      rcases hd with rfl | (rfl | rfl | rfl | rfl) | ⟨hq, _⟩
      · exact ⟨_, rfl, gives_ok (.leaf (by rfl)) (string_value _) (.inl rfl)⟩
      · exact ⟨_, rfl, gives_ok (.leaf (by rfl)) (string_value _) (.inr rfl)⟩
      · exact ⟨_, rfl, gives_ok (static_object (by rfl)) (pet_value .tom (by decide +kernel)) (.inr rfl)⟩
      · exact ⟨_, rfl, gives_ok (static_leaf (by rfl)) (present_value (boolean_value true)) (.inl rfl)⟩
      · exact ⟨_, rfl, gives_ok (static_object (by rfl)) absent_value (.inl rfl)⟩
      · exact absurd hq (by decide)
    | tom =>
      rw [typeOf, find_cat] at ht
      cases ht
      simp only [petFields, best, List.mem_cons, List.not_mem_nil, or_false, List.cons_append, List.nil_append] at hd
      rcases hd with rfl | (rfl | rfl | rfl | rfl) | ⟨hq, _⟩
      · exact ⟨_, rfl, gives_ok (.leaf (by rfl)) (string_value _) (.inl rfl)⟩
      · exact ⟨_, rfl, gives_ok (.leaf (by rfl)) (string_value _) (.inl rfl)⟩
      · exact ⟨_, rfl, gives_ok (static_object (by rfl)) absent_value (.inl rfl)⟩
      · refine ⟨lives shy, rfl, static_leaf (by rfl), fun params _ => ?_⟩
        cases shy with
        | true =>
          refine ⟨?_, nofun, nofun, nofun⟩
          rintro y ⟨⟩
          exact ⟨by simp, by simp [messages]⟩
        | false =>
          refine ⟨nofun, ?_, nofun, nofun⟩
          rintro y ⟨⟩
          exact present_value (int_value 9)
      · exact ⟨_, rfl, gives_ok (static_object (by rfl)) (pet_value .tom (by decide +kernel)) (.inl rfl)⟩
      · exact absurd hq (by decide)
  begins := nofun
  ends := nofun

theorem service_for (shy : Bool) : ServiceFor pets (service shy) typeOf (messages shy) where
  validates := by
    intro doc
    simp [service, errors, List.map_map, Function.comp_def]
  serves := impl_serves shy
  roots := by
    intro type root h
    unfold Schema.operationType at h
    split at h
    · rename_i ht
      cases h
      exact ⟨.query, by simp [service, ht], by decide +kernel⟩
    · split at h
      · cases h
      · split at h <;> cases h

/-! ## The request -/

/-- The selections below `find` in `good`. -/
def findSub : List Selection := [spread "F",
  .inline {} (some (str "Dog")) (some [⟨str "include", some [(str "if", .boolean true)]⟩])
    [leaf "barks" (some [(str "loud", .boolean true)])]]
def findArgs : Args := [(str "name", var "n"), (str "limit", var "d"),
  (str "tags", .list [.string (str "a"), .string (str "b")]), (str "opts", .object [(str "mood", .enumValue (str "HAPPY"))])]
def goodVars : List VarDef :=
  [{ name := str "n", type := required "String" }, { name := str "d", type := named "Int", default := some (.int 5) }]
/-- The operation of `good`. -/
def goodOp : Operation := ⟨{}, some (str "query"), none, goodVars, none, [node "find" (args := some findArgs) findSub]⟩
/-- The fragment of `good`. -/
def goodF : FragmentDef := ⟨{}, str "F", str "Pet", none, [leaf "name", node "friend" [leaf "name"]]⟩

theorem good_operations : good.operations = [goodOp] := by rfl
theorem good_fragments : good.fragments = [goodF] := by rfl
theorem good_F : good.fragments.find? (fun f => f.name == str "F") = some goodF := by rfl

theorem selects_root {type on : Str} {f : Field} {sub : Option (List Selection)}
    (h : Selects good.fragments type goodOp.sub on f sub) : on = type ∧ f = field "find" (some findArgs) ∧ sub = some findSub :=
  Selects.node_iff.mp h

theorem selects_name {type on : Str} {f : Field} {sub : Option (List Selection)}
    (h : Selects good.fragments type [leaf "name"] on f sub) : on = type ∧ f = field "name" ∧ sub = none :=
  Selects.leaf_iff.mp h

theorem selects_find {type on : Str} {f : Field} {sub : Option (List Selection)}
    (h : Selects good.fragments type findSub on f sub) :
    (on = str "Pet" ∧ f = field "name" ∧ sub = none) ∨
    (on = str "Pet" ∧ f = field "friend" ∧ sub = some [leaf "name"]) ∨
    (on = str "Dog" ∧ f = field "barks" (some [(str "loud", .boolean true)]) ∧ sub = none) := by
  rcases Selects.cons_iff.mp h with h | h
  · rcases Selects.cons_iff.mp ((Selects.spread_iff good_F).mp h) with h | h
    · exact .inl (Selects.leaf_iff.mp h)
    · exact .inr (.inl (Selects.node_iff.mp h))
  · have h' := Selects.inline_iff.mp h
    rw [if_neg (by decide)] at h'
    exact .inr (.inr (Selects.leaf_iff.mp h'))

theorem good_below {type : Str} {sel : List Selection} (h : Below pets good.fragments (str "Query") goodOp.sub type sel) :
    sel = goodOp.sub ∨ sel = findSub ∨ sel = [leaf "name"] := by
  induction h with
  | self => exact .inl rfl
  | field _ hs _ _ ih =>
    rcases ih with rfl | rfl | rfl
    · have := (selects_root hs).2.2; cases this; exact .inr (.inl rfl)
    · rcases selects_find hs with h | h | h
      · cases h.2.2
      · have := h.2.2; cases this; exact .inr (.inr rfl)
      · cases h.2.2
    · cases (selects_name hs).2.2

/-- Where two fields share their response name, they are the same field of the same type. -/
theorem good_same {type : Str} {sel : List Selection} (h : Below pets good.fragments (str "Query") goodOp.sub type sel)
    {on on' : Str} {f f' : Field} {sub sub' : Option (List Selection)} (hs : Selects good.fragments type sel on f sub)
    (hs' : Selects good.fragments type sel on' f' sub') (hn : responseName f = responseName f') :
    on = on' ∧ sub = sub' := by
  rcases good_below h with rfl | rfl | rfl
  · obtain ⟨rfl, _, rfl⟩ := selects_root hs
    obtain ⟨rfl, _, rfl⟩ := selects_root hs'
    exact ⟨rfl, rfl⟩
  · rcases selects_find hs with ⟨rfl, rfl, rfl⟩ | ⟨rfl, rfl, rfl⟩ | ⟨rfl, rfl, rfl⟩ <;>
      rcases selects_find hs' with ⟨rfl, rfl, rfl⟩ | ⟨rfl, rfl, rfl⟩ | ⟨rfl, rfl, rfl⟩ <;>
      first | exact ⟨rfl, rfl⟩ | exact absurd hn (by decide)
  · obtain ⟨rfl, _, rfl⟩ := selects_name hs
    obtain ⟨rfl, _, rfl⟩ := selects_name hs'
    exact ⟨rfl, rfl⟩

theorem nonEmpty_name : NonEmpty [leaf "name"] := .mk nofun (by simp [leaf]) (by simp [leaf])

theorem nonEmpty_F : NonEmpty goodF.sub := by
  refine .mk nofun ?_ (by simp [goodF, leaf, node])
  intro f pos sub h
  simp only [goodF, leaf, node, List.mem_cons, List.not_mem_nil, or_false, reduceCtorEq, false_or, Selection.node.injEq] at h
  obtain ⟨_, _, rfl⟩ := h
  exact nonEmpty_name

theorem nonEmpty_find : NonEmpty findSub := by
  refine .mk nofun (by simp [findSub, spread]) ?_
  intro pos t ds sub h
  simp only [findSub, spread, List.mem_cons, List.not_mem_nil, or_false, reduceCtorEq, false_or, Selection.inline.injEq] at h
  obtain ⟨_, _, _, rfl⟩ := h
  exact .mk nofun (by simp [leaf]) (by simp [leaf])

theorem nonEmpty_good : NonEmpty goodOp.sub := by
  refine .mk nofun ?_ (by simp [goodOp, node])
  intro f pos sub h
  simp only [goodOp, node, List.mem_singleton, Selection.node.injEq] at h
  obtain ⟨_, _, rfl⟩ := h
  exact nonEmpty_find

theorem conditional_none : Conditional none := by
  intro d hd
  cases hd

theorem conditional_name {ds : Option (List Directive)} (h : Written good.fragments [leaf "name"] ds) : Conditional ds := by
  cases h with
  | leaf hm =>
    simp only [leaf, List.mem_singleton, Selection.leaf.injEq] at hm
    subst hm
    exact conditional_none
  | _ hm => simp [leaf] at hm

theorem conditional_F {ds : Option (List Directive)} (h : Written good.fragments goodF.sub ds) : Conditional ds := by
  cases h with
  | leaf hm =>
    simp only [goodF, leaf, node, List.mem_cons, List.not_mem_nil, or_false, reduceCtorEq, Selection.leaf.injEq] at hm
    subst hm
    exact conditional_none
  | nodeHere hm =>
    simp only [goodF, leaf, node, List.mem_cons, List.not_mem_nil, or_false, reduceCtorEq, false_or, Selection.node.injEq] at hm
    obtain ⟨rfl, _⟩ := hm
    exact conditional_none
  | node hm h =>
    simp only [goodF, leaf, node, List.mem_cons, List.not_mem_nil, or_false, reduceCtorEq, false_or, Selection.node.injEq] at hm
    obtain ⟨_, _, rfl⟩ := hm
    exact conditional_name h
  | _ hm => simp [goodF, leaf, node] at hm

theorem conditional_find {ds : Option (List Directive)} (h : Written good.fragments findSub ds) : Conditional ds := by
  cases h with
  | spreadHere hm =>
    simp only [findSub, spread, List.mem_cons, List.not_mem_nil, or_false, reduceCtorEq, Selection.spread.injEq] at hm
    obtain ⟨_, _, rfl⟩ := hm
    exact conditional_none
  | spread hm hf h =>
    simp only [findSub, spread, List.mem_cons, List.not_mem_nil, or_false, reduceCtorEq, Selection.spread.injEq] at hm
    obtain ⟨_, rfl, _⟩ := hm
    rw [good_F] at hf
    cases hf
    exact conditional_F h
  | inlineHere hm =>
    simp only [findSub, spread, List.mem_cons, List.not_mem_nil, or_false, reduceCtorEq, false_or, Selection.inline.injEq] at hm
    obtain ⟨_, _, rfl, _⟩ := hm
    intro d hd _
    simp only [Option.getD_some, List.mem_singleton] at hd
    subst hd
    simp
  | inline hm h =>
    simp only [findSub, spread, List.mem_cons, List.not_mem_nil, or_false, reduceCtorEq, false_or, Selection.inline.injEq] at hm
    obtain ⟨_, _, _, rfl⟩ := hm
    cases h with
    | leaf hm =>
      simp only [leaf, List.mem_singleton, Selection.leaf.injEq] at hm
      subst hm
      exact conditional_none
    | _ hm => simp [leaf] at hm
  | _ hm => simp [findSub, spread] at hm

theorem conditional_good {ds : Option (List Directive)} (h : Written good.fragments goodOp.sub ds) : Conditional ds := by
  cases h with
  | nodeHere hm =>
    simp only [goodOp, node, List.mem_singleton, Selection.node.injEq] at hm
    obtain ⟨rfl, _⟩ := hm
    exact conditional_none
  | node hm h =>
    simp only [goodOp, node, List.mem_singleton, Selection.node.injEq] at hm
    obtain ⟨_, _, rfl⟩ := hm
    exact conditional_find h
  | _ hm => simp [goodOp, node] at hm

/-- `good` meets the assumptions. -/
theorem good_ready : Accepted pets (fun n => n) good goodOp (str "Query") where
  closed := pets_closed
  implements := pets_implements
  standard := pets_standard
  wellFormed := good_wellFormed
  operationsNonEmpty := by
    intro op hop
    rw [good_operations, List.mem_singleton] at hop
    subst hop
    exact nonEmpty_good
  fragmentsNonEmpty := by
    intro f hf
    rw [good_fragments, List.mem_singleton] at hf
    subst hf
    exact nonEmpty_F
  accepted := good_accepted
  operation := by rw [good_operations]; exact List.mem_singleton.mpr rfl
  rootType := by rfl
  consistent := by
    intro type sel hb on f sub hs on' f' sub' hs' hn
    exact (good_same hb hs' hs hn).2
  shared := by
    intro type sel hb on f sub on' f' sub' hs hs' hn hne
    exact absurd (good_same hb hs hs' hn).1 hne
  conditional := fun ds h => conditional_good h

/-- `{ "n": "Rex" }` -/
def goodSupplied : Members := [(str "n", .string (str "Rex") true)]

theorem inLit_var {s : String} {v : Str} (h : InLit (var s) v) : v = str s := by
  cases h
  rfl

theorem variables_name {v : Str} : ¬ InSelections good.fragments [leaf "name"] v := by
  intro h
  cases h with
  | leafArguments hm h =>
    simp only [leaf, List.mem_singleton, Selection.leaf.injEq] at hm
    subst hm
    obtain ⟨e, he, _⟩ := h
    cases he
  | leafDirectives hm h =>
    simp only [leaf, List.mem_singleton, Selection.leaf.injEq] at hm
    subst hm
    obtain ⟨e, he, _⟩ := h
    cases he
  | _ hm => simp [leaf] at hm

theorem variables_F {v : Str} : ¬ InSelections good.fragments goodF.sub v := by
  intro h
  cases h with
  | leafArguments hm h =>
    simp only [goodF, leaf, node, List.mem_cons, List.not_mem_nil, or_false, reduceCtorEq, Selection.leaf.injEq] at hm
    subst hm
    obtain ⟨e, he, _⟩ := h
    cases he
  | leafDirectives hm h =>
    simp only [goodF, leaf, node, List.mem_cons, List.not_mem_nil, or_false, reduceCtorEq, Selection.leaf.injEq] at hm
    subst hm
    obtain ⟨e, he, _⟩ := h
    cases he
  | nodeArguments hm h =>
    simp only [goodF, leaf, node, List.mem_cons, List.not_mem_nil, or_false, reduceCtorEq, false_or, Selection.node.injEq] at hm
    obtain ⟨rfl, _⟩ := hm
    obtain ⟨e, he, _⟩ := h
    cases he
  | nodeDirectives hm h =>
    simp only [goodF, leaf, node, List.mem_cons, List.not_mem_nil, or_false, reduceCtorEq, false_or, Selection.node.injEq] at hm
    obtain ⟨rfl, _⟩ := hm
    obtain ⟨e, he, _⟩ := h
    cases he
  | node hm h =>
    simp only [goodF, leaf, node, List.mem_cons, List.not_mem_nil, or_false, reduceCtorEq, false_or, Selection.node.injEq] at hm
    obtain ⟨_, _, rfl⟩ := hm
    exact variables_name h
  | _ hm => simp [goodF, leaf, node] at hm

theorem variables_find {v : Str} : ¬ InSelections good.fragments findSub v := by
  intro h
  cases h with
  | spreadDirectives hm h =>
    simp only [findSub, spread, List.mem_cons, List.not_mem_nil, or_false, reduceCtorEq, Selection.spread.injEq] at hm
    obtain ⟨_, _, rfl⟩ := hm
    obtain ⟨e, he, _⟩ := h
    cases he
  | spread hm hf h =>
    simp only [findSub, spread, List.mem_cons, List.not_mem_nil, or_false, reduceCtorEq, Selection.spread.injEq] at hm
    obtain ⟨_, rfl, _⟩ := hm
    rw [good_F] at hf
    cases hf
    exact variables_F h
  | inlineDirectives hm h =>
    simp only [findSub, spread, List.mem_cons, List.not_mem_nil, or_false, reduceCtorEq, false_or, Selection.inline.injEq] at hm
    obtain ⟨_, _, rfl, _⟩ := hm
    obtain ⟨d, hd, e, he, h⟩ := h
    simp only [Option.getD_some, List.mem_singleton] at hd
    subst hd
    simp only [Option.getD_some, List.mem_singleton] at he
    subst he
    cases h
  | inline hm h =>
    simp only [findSub, spread, List.mem_cons, List.not_mem_nil, or_false, reduceCtorEq, false_or, Selection.inline.injEq] at hm
    obtain ⟨_, _, _, rfl⟩ := hm
    cases h with
    | leafArguments hm h =>
      simp only [leaf, List.mem_singleton, Selection.leaf.injEq] at hm
      subst hm
      obtain ⟨e, he, h⟩ := h
      simp only [field, Option.getD_some, List.mem_singleton] at he
      subst he
      cases h
    | leafDirectives hm h =>
      simp only [leaf, List.mem_singleton, Selection.leaf.injEq] at hm
      subst hm
      obtain ⟨e, he, _⟩ := h
      cases he
    | _ hm => simp [leaf] at hm
  | _ hm => simp [findSub, spread] at hm

theorem variables_good {v : Str} (h : InSelections good.fragments goodOp.sub v) : v = str "n" ∨ v = str "d" := by
  cases h with
  | nodeArguments hm h =>
    simp only [goodOp, node, List.mem_singleton, Selection.node.injEq] at hm
    obtain ⟨rfl, _⟩ := hm
    obtain ⟨e, he, h⟩ := h
    simp only [field, findArgs, Option.getD_some, List.mem_cons, List.not_mem_nil, or_false] at he
    rcases he with rfl | rfl | rfl | rfl
    · exact .inl (inLit_var h)
    · exact .inr (inLit_var h)
    · cases h with
      | list hm h =>
        simp only [List.mem_cons, List.not_mem_nil, or_false] at hm
        rcases hm with rfl | rfl <;> cases h
    · cases h with
      | object hm h =>
        simp only [List.mem_singleton] at hm
        subst hm
        cases h
  | nodeDirectives hm h =>
    simp only [goodOp, node, List.mem_singleton, Selection.node.injEq] at hm
    obtain ⟨rfl, _⟩ := hm
    obtain ⟨e, he, _⟩ := h
    cases he
  | node hm h =>
    simp only [goodOp, node, List.mem_singleton, Selection.node.injEq] at hm
    obtain ⟨_, _, rfl⟩ := hm
    exact absurd h variables_find
  | _ hm => simp [goodOp, node] at hm

/-- The name is supplied; the default of the other variable is taken. -/
theorem good_supplied : Supplied pets good goodOp goodSupplied where
  declared := by
    rintro v (h | h)
    · rcases variables_good h with rfl | rfl
      · decide
      · decide
    · obtain ⟨d, hd, _⟩ := h
      cases hd
  values := by
    intro d hd v hv
    simp only [goodOp, goodVars, List.mem_cons, List.not_mem_nil, or_false] at hd
    rcases hd with rfl | rfl
    · have : Members.find goodSupplied (str "n") = some (.string (str "Rex") true) := by rfl
      rw [this] at hv
      cases hv
      refine ⟨.scalar (name := str "String") nofun rfl (by rfl) rfl ?_, fun _ => nofun⟩
      exact ⟨fun h => absurd h (by decide), fun h => absurd h (by decide), fun _ => ⟨_, _, rfl⟩, fun h => absurd h (by decide),
        fun h => absurd h (by decide)⟩
    · have : Members.find goodSupplied (str "d") = none := by rfl
      rw [this] at hv
      cases hv
  required := by
    intro d hd hr hn
    simp only [goodOp, goodVars, List.mem_cons, List.not_mem_nil, or_false] at hd
    rcases hd with rfl | rfl
    · rfl
    · cases hn
  constants := by
    intro d hd l hl v h
    simp only [goodOp, goodVars, List.mem_cons, List.not_mem_nil, or_false] at hd
    rcases hd with rfl | rfl
    · cases hl
    · cases hl
      cases h
  definitions := by
    intro f hf v hv
    rw [good_fragments, List.mem_singleton] at hf
    subst hf
    obtain ⟨d, hd, _⟩ := hv
    cases hd

theorem good_selects : Request.Spec.Selects good.operations [] goodOp := by
  rw [good_operations]
  exact ⟨[], [], rfl, .inl ⟨rfl, rfl⟩⟩

/-- So **C60** applies. -/
theorem good_answered : ∃ run data, Request.resolve (service false) false good [] goodSupplied = .done run ∧
    run.result = .ok (.map [(str "data", data)]) ∧
    Gen.Client.Answers pets good.fragments (.named (str "Query")) (some goodOp.sub) data ∧
    Gen.Client.NoDuplicates data ∧ data ≠ .null :=
  C60_no_errors (service_for false) good_ready good_consistent good_supplied good_selects (by decide) false

/-- What the service answers. -/
def goodData : Resp := .map [(str "find", .map [(str "name", .string (str "Rex") false),
  (str "friend", .map [(str "name", .string (str "Tom") false)]), (str "barks", .boolean true)])]

theorem good_answer : Request.resolve (service false) false good [] goodSupplied =
    .done ⟨[], .ok (.map [(str "data", goodData)])⟩ := by
  run_tac do
    let goal ← Lean.Elab.Tactic.getMainGoal
    let some (type, _, right) := (← goal.getType).eq? | throwError "not an equation"
    goal.assign (Lean.mkApp2 (.const ``Eq.refl [1]) type right)

/-- The response is a value which can be built. -/
theorem goodValue_built : ∃ value, Value.Built value ∧ tree value = .map [(str "data", goodData)] := by
  have add : ∀ {es ms} (name : Str) {v : Value}, Value.Built (.map es ms) → Value.Built v → name ∉ es.map (·.1) →
      ∃ ms', Value.Built (.map (es ++ [(name, v)]) ms') := by
    intro es ms name v h hv hn
    obtain ⟨_, _, ms', h'⟩ := Value.C04_map_built es ms h name v
    have e : Spec.add es (name, v) = es ++ [(name, v)] := by
      simp [Spec.add]
      simpa using hn
    rw [e] at h'
    exact ⟨ms', .emplaceBack h hv h'⟩
  have none_ : Value.Built (.map [] []) := .ofType .map
  obtain ⟨m1, h1⟩ := add (str "name") none_ (.string (str "Tom")) (by simp)
  obtain ⟨m2, h2⟩ := add (str "name") none_ (.string (str "Rex")) (by simp)
  obtain ⟨m3, h3⟩ := add (str "friend") h2 h1 (by decide)
  obtain ⟨m4, h4⟩ := add (str "barks") h3 (.boolean true) (by simp only [List.nil_append, List.cons_append, List.map_cons, List.map_nil]; decide)
  obtain ⟨m5, h5⟩ := add (str "find") none_ h4 (by simp)
  obtain ⟨m6, h6⟩ := add (str "data") none_ h5 (by simp)
  exact ⟨_, h6, rfl⟩

/-- And **C61**: the client for `good` reads what the service answers. -/
theorem good_end_to_end : ∃ client value calls received d, tree value = .map [(str "data", goodData)] ∧
    Gen.Client.loadRequest pets (fun n => n) [] 1 good = .ok client ∧
    Json.write value = .ok calls ∧ Json.parseEvents (calls.map Json.reread) = .ok received ∧
    (parseServiceResponse (tree received)).errors = [] ∧
    Gen.Client.parseResponse pets client.fields (parseServiceResponse (tree received)).data = .ok d ∧
    Gen.Client.Represents pets client.root client.fields [] (Json.Spec.normalize goodData) (.leaf d) := by
  obtain ⟨client, hc, _⟩ := Gen.Client.good_response
  obtain ⟨_, hch, _, _⟩ := Gen.Client.C56_response Gen.Client.pets_ready pets_closed good_wellFormed hc
  have hop : client.operation = goodOp := by
    have hm := hch.mem
    rw [good_operations, List.mem_singleton] at hm
    exact hm
  obtain ⟨run, data, h1, h2, h3⟩ := C61_end_to_end (service_for false) good_ready good_consistent good_supplied good_selects
    (by decide) false Gen.Client.pets_ready Gen.Client.pets_enums hc hop
  rw [good_answer] at h1
  cases h1
  cases h2
  obtain ⟨value, hb, ht⟩ := goodValue_built
  obtain ⟨calls, received, hw, hp, he, d, hd, hr⟩ := h3 value hb ht (by
    rw [ht]
    simp only [goodData, Json.Spec.Representable, Json.Spec.RepresentableEntries]
    decide +kernel)
  exact ⟨client, value, calls, received, d, ht, hc, hw, hp, he, hd, hr⟩

/-! ## Findings: what the assumptions exclude -/

/-- What the service answers to a document with one operation. -/
def answer (doc : Document) : Option (Except Exn Resp) :=
  match Request.resolve (service false) false doc [] [] with
  | .done run => some run.result
  | _ => none

/-- `{ pet { ... on Dog { a: friend { name } } ... on Cat { a: best(of: 1) { fish } } } }` -/
def inconsistent : Document := ⟨[query [node "pet" [on "Dog" [aliasNode "a" "friend" [leaf "name"]],
  on "Cat" [aliasNode "a" "best" [leaf "fish"] (some [(str "of", .int 1)])]]]]⟩

theorem inconsistent_answer : answer inconsistent = some (.ok (.map [
    (str "data", .map [(str "pet", .map [(str "a", .map [(str "fish", .null)])])]),
    (str "errors", .list [.map [(str "message", .string (str "Unknown field name: fish") false),
      (str "path", .list [.string (str "pet") false, .string (str "a") false])]])])) := by
  run_tac do
    let goal ← Lean.Elab.Tactic.getMainGoal
    let some (type, _, right) := (← goal.getType).eq? | throwError "not an equation"
    goal.assign (Lean.mkApp2 (.const ``Eq.refl [1]) type right)

/-- **C60** (finding) Without `Accepted.consistent`: the document is accepted, but a field in it does not exist. -/
theorem C60_unknown_field : errors inconsistent = [] ∧ ∃ data errs, answer inconsistent = some (.ok (.map [
    (str "data", data), (str "errors", .list [.map ((str "message", .string (str "Unknown field name: fish") false) :: errs)])])) :=
  ⟨by decide +kernel, _, _, inconsistent_answer⟩

/-- `{ __typename @include }` -/
def bare : Document := ⟨[query [.leaf (field "__typename" none (some [⟨str "include", none⟩]))]]⟩

theorem bare_answer : answer bare =
    some (.error (.schema [{ message := str "Missing argument directive: include name: if" }])) := by
  run_tac do
    let goal ← Lean.Elab.Tactic.getMainGoal
    let some (type, _, right) := (← goal.getType).eq? | throwError "not an equation"
    goal.assign (Lean.mkApp2 (.const ``Eq.refl [1]) type right)

/-- **C60** (finding) Without `Accepted.conditional`: the document is accepted, and the request throws. -/
theorem C60_condition_without_argument : errors bare = [] ∧
    answer bare = some (.error (.schema [{ message := str "Missing argument directive: include name: if" }])) :=
  ⟨by decide +kernel, bare_answer⟩

/-- `{ find(name: "a", any: [$x]) { name } }` -/
def undeclared : Document :=
  ⟨[query [node "find" [leaf "name"] (some [(str "name", .string (str "a")), (str "any", .list [var "x"])])]]⟩

theorem undeclared_answer : answer undeclared =
    some (.error (.schema [{ message := str "Unknown variable name: x" }])) := by
  run_tac do
    let goal ← Lean.Elab.Tactic.getMainGoal
    let some (type, _, right) := (← goal.getType).eq? | throwError "not an equation"
    goal.assign (Lean.mkApp2 (.const ``Eq.refl [1]) type right)

/-- **C60** (finding) Without `Supplied.declared`: the document is accepted, and the request throws. -/
theorem C60_undeclared_variable : errors undeclared = [] ∧
    answer undeclared = some (.error (.schema [{ message := str "Unknown variable name: x" }])) :=
  ⟨by decide +kernel, undeclared_answer⟩

/-- **C60** (finding) A null pointer for an object which is not nullable gives null, and no error. -/
theorem C60_null_pointer {E O : Type} (I : Impl E O) (direct : Bool) (params : ResolverParams E O)
    (h : params.selection.isSome) : ∃ fut : Fut E,
    (convert I (.object direct) params (.value (.object none))).result = .ok fut ∧ fut.result = .ok { data := .null, errors := [] } := by
  obtain ⟨⟨sel, visit⟩, hs⟩ := Option.isSome_iff_exists.mp h
  cases direct
  · exact ⟨_, by simp only [convert, convertObject, hs]; rfl, rfl⟩
  · exact ⟨_, by simp only [convert, convertObject, hs]; rfl, rfl⟩

end Verif.Sound.Examples
