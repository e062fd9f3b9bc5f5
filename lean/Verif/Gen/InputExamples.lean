import Verif.Gen.InputRoundtrip

/-!
# Examples for C58 and C59

```graphql
enum Color { RED GREEN }
input Point { x: Int! = 0, y: Int, colors: [Color!]!, next: Point }
type Query { find(at: Point!, tag: String = "t", limit: Int! = 5): Int }
```
-/
namespace Verif.Gen.Service
open Verif.Value Verif.Resp Verif.Errors Verif.Modifiers Verif.Gen
open Verif.Gen.Client (Data NoDuplicates safeName)

def fx : InputField := { type := str "Int", name := str "x", defaultValue := .int 0 }
def fy : InputField := { type := str "Int", name := str "y", modifiers := [.nullable] }
def fcolors : InputField := { type := str "Color", name := str "colors", fieldType := .enum, modifiers := [.list] }
def fnext : InputField := { type := str "Point", name := str "next", fieldType := .input, modifiers := [.nullable] }

def point : InputType := { type := str "Point", fields := [fx, fy, fcolors, fnext] }
def color : EnumType := { type := str "Color", values := [{ value := str "RED" }, { value := str "GREEN" }] }
def demo : Types := { enums := [color], inputs := [point] }

def fat : InputField := { type := str "Point", name := str "at", fieldType := .input }
def ftag : InputField :=
  { type := str "String", name := str "tag", defaultValue := .string (str "t") false, modifiers := [.nullable] }
def flimit : InputField := { type := str "Int", name := str "limit", defaultValue := .int 5 }

theorem demo_unique : demo.Unique where
  enums := by simp [demo]
  values := by
    have : ∀ e ∈ demo.enums, (e.values.map (·.value)).Nodup := by decide +kernel
    exact this
  inputs := by simp [demo]
  fields := by
    have : ∀ e ∈ demo.inputs, (e.fields.map (·.name)).Nodup := by decide +kernel
    exact this

theorem demo_closed : demo.Closed := by
  intro t ht f hf
  simp only [demo, List.mem_singleton] at ht
  subst ht
  simp only [point, List.mem_cons, List.not_mem_nil, or_false] at hf
  rcases hf with rfl | rfl | rfl | rfl
  · show str "Int" ∈ builtinTypes
    decide +kernel
  · show str "Int" ∈ builtinTypes
    decide +kernel
  · trivial
  · exact ⟨point, by simp [demo], rfl⟩

/-- `{ colors: [RED], next: { x: 2, colors: [] } }` -/
def inner : Members := [(str "x", .int 2), (str "colors", .list [])]
def outer : Members := [(str "colors", .list [.enumValue (str "RED")]), (str "next", .map inner)]

def innerData : List (Str × Arg Data) :=
  [(str "x", .leaf (.int 2)), (str "y", .none), (str "colors", .list []), (str "next", .none)]
def outerData : List (Str × Arg Data) :=
  [(str "x", .leaf (.int 0)), (str "y", .none), (str "colors", .list [.leaf (.enum 0)]),
    (str "next", .some (.leaf (.object innerData)))]

theorem n1 : str "x" ≠ str "colors" := by decide +kernel
theorem n2 : str "y" ≠ str "x" := by decide +kernel
theorem n3 : str "y" ≠ str "colors" := by decide +kernel
theorem n4 : str "next" ≠ str "x" := by decide +kernel
theorem n5 : str "next" ≠ str "colors" := by decide +kernel
theorem n6 : str "y" ≠ str "next" := by decide +kernel
theorem n7 : str "x" ≠ str "next" := by decide +kernel
theorem n8 : str "tag" ≠ str "at" := by decide +kernel
theorem n9 : str "limit" ≠ str "at" := by decide +kernel

theorem zip_point {P : InputField → Arg Data → Prop} {a b c d : Arg Data} (h1 : P fx a) (h2 : P fy b) (h3 : P fcolors c)
    (h4 : P fnext d) : ∀ f x, (f, x) ∈ point.fields.zip [a, b, c, d] → P f x := by
  intro f x hx
  simp only [point, List.zip_cons_cons, List.zip_nil_left, List.mem_cons, Prod.mk.injEq, List.not_mem_nil, or_false] at hx
  rcases hx with ⟨rfl, rfl⟩ | ⟨rfl, rfl⟩ | ⟨rfl, rfl⟩ | ⟨rfl, rfl⟩ <;> assumption

theorem inner_coerces : Coerces demo .input (str "Point") [] (.map inner) (.leaf (.object innerData)) := by
  refine .object (t := point) (by simp [demo]) (by decide +kernel) rfl ?_ ?_ ?_ ?_
  · intro f a v hx
    revert v
    refine zip_point (P := fun f a => ∀ v, (f.name, v) ∈ inner → Coerces demo f.fieldType f.type f.modifiers v a)
      ?_ ?_ ?_ ?_ f a hx
    · intro v hv
      simp only [fx, inner, List.mem_cons, Prod.mk.injEq, true_and, n1, false_and, List.not_mem_nil, or_false] at hv
      subst hv
      exact .leaf .int
    · intro v hv
      simp [fy, inner, n2, n3] at hv
    · intro v hv
      simp only [fcolors, inner, List.mem_cons, Prod.mk.injEq, true_and, n1.symm, false_and, List.not_mem_nil, or_false,
        false_or] at hv
      subst hv
      exact .list rfl (by simp)
    · intro v hv
      simp [fnext, inner, n4, n5] at hv
  · exact zip_point (P := fun f a => (∀ v, (f.name, v) ∉ inner) → Nullable f.modifiers → a = .none)
      (by rintro _ ⟨_, h⟩; cases h) (fun _ _ => rfl) (by rintro _ ⟨_, h⟩; cases h) (fun _ _ => rfl)
  · exact zip_point (P := fun f a => (∀ v, (f.name, v) ∉ inner) → ¬ Nullable f.modifiers → f.defaultValue ≠ .null)
      (fun _ _ => nofun) (fun _ h => absurd ⟨_, rfl⟩ h) (fun h => absurd (by simp [inner, fcolors]) (h (.list [])))
      (fun _ h => absurd ⟨_, rfl⟩ h)
  · exact zip_point (P := fun f a => (∀ v, (f.name, v) ∉ inner) → ¬ Nullable f.modifiers →
        Coerces demo f.fieldType f.type f.modifiers f.defaultValue a)
      (fun h => absurd (by simp [inner, fx]) (h (.int 2))) (fun _ h => absurd ⟨_, rfl⟩ h)
      (fun h => absurd (by simp [inner, fcolors]) (h (.list []))) (fun _ h => absurd ⟨_, rfl⟩ h)

theorem outer_coerces : Coerces demo .input (str "Point") [] (.map outer) (.leaf (.object outerData)) := by
  refine .object (t := point) (by simp [demo]) (by decide +kernel) rfl ?_ ?_ ?_ ?_
  · intro f a v hx
    revert v
    refine zip_point (P := fun f a => ∀ v, (f.name, v) ∈ outer → Coerces demo f.fieldType f.type f.modifiers v a)
      ?_ ?_ ?_ ?_ f a hx
    · intro v hv
      simp [fx, outer, n1, n7] at hv
    · intro v hv
      simp [fy, outer, n3, n6] at hv
    · intro v hv
      simp only [fcolors, outer, List.mem_cons, Prod.mk.injEq, true_and, n5.symm, false_and, List.not_mem_nil, or_false]
        at hv
      subst hv
      refine .list rfl ?_
      simp only [List.zip_cons_cons, List.zip_nil_left, List.mem_cons, Prod.mk.injEq, List.not_mem_nil, or_false]
      rintro v a ⟨rfl, rfl⟩
      exact .leaf (.enum (e := color) (by simp [demo]) (.inr rfl) rfl)
    · intro v hv
      simp only [fnext, outer, List.mem_cons, Prod.mk.injEq, true_and, n5, false_and, List.not_mem_nil, or_false, false_or]
        at hv
      subst hv
      exact .some (by nofun) inner_coerces
  · exact zip_point (P := fun f a => (∀ v, (f.name, v) ∉ outer) → Nullable f.modifiers → a = .none)
      (by rintro _ ⟨_, h⟩; cases h) (fun _ _ => rfl) (by rintro _ ⟨_, h⟩; cases h)
      (fun h => absurd (by simp [outer, fnext]) (h (.map inner)))
  · exact zip_point (P := fun f a => (∀ v, (f.name, v) ∉ outer) → ¬ Nullable f.modifiers → f.defaultValue ≠ .null)
      (fun _ _ => nofun) (fun _ h => absurd ⟨_, rfl⟩ h)
      (fun h => absurd (by simp [outer, fcolors]) (h (.list [.enumValue (str "RED")]))) (fun _ h => absurd ⟨_, rfl⟩ h)
  · exact zip_point (P := fun f a => (∀ v, (f.name, v) ∉ outer) → ¬ Nullable f.modifiers →
        Coerces demo f.fieldType f.type f.modifiers f.defaultValue a)
      (fun _ _ => .leaf .int) (fun _ h => absurd ⟨_, rfl⟩ h)
      (fun h => absurd (by simp [outer, fcolors]) (h (.list [.enumValue (str "RED")]))) (fun _ h => absurd ⟨_, rfl⟩ h)

theorem zip_find {P : InputField → Arg Data → Prop} {a b c : Arg Data} (h1 : P fat a) (h2 : P ftag b) (h3 : P flimit c) :
    ∀ f x, (f, x) ∈ [fat, ftag, flimit].zip [a, b, c] → P f x := by
  intro f x hx
  simp only [List.zip_cons_cons, List.zip_nil_left, List.mem_cons, Prod.mk.injEq, List.not_mem_nil, or_false] at hx
  rcases hx with ⟨rfl, rfl⟩ | ⟨rfl, rfl⟩ | ⟨rfl, rfl⟩ <;> assumption

/-- The arguments of `find(at: { colors: [RED], next: { x: 2, colors: [] } })`: `tag` is null, `limit` is 5. -/
def findData : List (Str × Arg Data) :=
  [(str "at", .leaf (.object outerData)), (str "tag", .none), (str "limit", .leaf (.int 5))]

theorem find_passed : Passed demo [fat, ftag, flimit] [(str "at", .map outer)] findData where
  names := rfl
  given := by
    intro f a v hx
    revert v
    refine zip_find (P := fun f a => ∀ v, (f.name, v) ∈ [(str "at", Resp.map outer)] →
      Coerces demo f.fieldType f.type f.modifiers v a) ?_ ?_ ?_ f a hx
    · intro v hv
      simp only [fat, List.mem_cons, Prod.mk.injEq, true_and, List.not_mem_nil, or_false] at hv
      subst hv
      exact outer_coerces
    · intro v hv
      simp [ftag, n8] at hv
    · intro v hv
      simp [flimit, n9] at hv
  null := zip_find (P := fun f a => (∀ v, (f.name, v) ∉ [(str "at", Resp.map outer)]) → Nullable f.modifiers → a = .none)
    (by rintro _ ⟨_, h⟩; cases h) (fun _ _ => rfl) (by rintro _ ⟨_, h⟩; cases h)
  required := zip_find (P := fun f a => (∀ v, (f.name, v) ∉ [(str "at", Resp.map outer)]) → ¬ Nullable f.modifiers →
      f.defaultValue ≠ .null)
    (fun h => absurd (by simp [fat]) (h (.map outer))) (fun _ h => absurd ⟨_, rfl⟩ h) (fun _ _ => nofun)
  default := zip_find (P := fun f a => (∀ v, (f.name, v) ∉ [(str "at", Resp.map outer)]) → ¬ Nullable f.modifiers →
      Coerces demo f.fieldType f.type f.modifiers f.defaultValue a)
    (fun h => absurd (by simp [fat]) (h (.map outer))) (fun _ h => absurd ⟨_, rfl⟩ h) (fun _ _ => .leaf .int)

/-- C58 is not vacuous. -/
example : ∃ n, ∀ depth ≥ n, resolverArguments demo depth [fat, ftag, flimit] [(str "at", .map outer)] = .ok findData :=
  C58_passed demo_unique (by decide +kernel) find_passed

example : ∃ ds, resolverArguments demo 2 [fat, ftag, flimit] [(str "at", .map outer)] = .ok ds := ⟨findData, rfl⟩

/-- `NoDefaults` and the others of C58_iff: the same types without the default. -/
def plain : Types := { enums := [color], inputs := [{ type := str "Point", fields := [fy, fcolors, fnext] }] }

example : plain.Unique ∧ plain.Closed ∧ plain.NoDefaults ∧ (∀ t ∈ plain.inputs, t.fields ≠ []) ∧ NoDuplicates (.map outer) := by
  refine ⟨⟨by simp [plain], ?_, by simp [plain], ?_⟩, ?_, ?_, ?_, ?_⟩
  · have : ∀ e ∈ plain.enums, (e.values.map (·.value)).Nodup := by decide +kernel
    exact this
  · have : ∀ e ∈ plain.inputs, (e.fields.map (·.name)).Nodup := by decide +kernel
    exact this
  · intro t ht f hf
    simp only [plain, List.mem_singleton] at ht
    subst ht
    simp only [List.mem_cons, List.not_mem_nil, or_false] at hf
    rcases hf with rfl | rfl | rfl
    · show str "Int" ∈ builtinTypes
      decide +kernel
    · trivial
    · exact ⟨_, List.mem_singleton.mpr rfl, rfl⟩
  · intro t ht f hf
    simp only [plain, List.mem_singleton] at ht
    subst ht
    simp only [List.mem_cons, List.not_mem_nil, or_false] at hf
    rcases hf with rfl | rfl | rfl <;> rfl
  · intro t ht
    simp only [plain, List.mem_singleton] at ht
    subst ht
    exact nofun
  · refine .map (by decide +kernel) fun m hm => ?_
    simp only [outer, List.mem_cons, List.not_mem_nil, or_false] at hm
    rcases hm with rfl | rfl
    · refine .list fun v hv => ?_
      simp only [List.mem_singleton] at hv
      subst hv
      exact .other nofun nofun
    · refine .map (by decide +kernel) fun m hm => ?_
      simp only [inner, List.mem_cons, List.not_mem_nil, or_false] at hm
      rcases hm with rfl | rfl
      · exact .other nofun nofun
      · exact .list (by simp)

/-! ## Findings -/

/-- The default of an argument which can be null is never used when the argument is not given: `tag` is null, not `"t"`
(GraphQLService.h:369-386: `find` succeeds). -/
theorem C58_nullable_default_ignored (depth : Nat) : resolverArguments demo depth [ftag] [] = .ok [(str "tag", .none)] := rfl

/-- A value which is not valid is replaced by the default, without an error: `find(limit: "many")` (GraphQLService.h:411-424:
`find` catches everything). -/
theorem C58_invalid_replaced (depth : Nat) :
    resolverArguments demo depth [flimit] [(str "limit", .string (str "many") true)] = .ok [(str "limit", .leaf (.int 5))] ∧
    ¬ ∃ a, Coerces demo flimit.fieldType flimit.type flimit.modifiers (.string (str "many") true) a := by
  refine ⟨by cases depth <;> rfl, ?_⟩
  rintro ⟨a, h⟩
  obtain ⟨n, hn⟩ := require_coerces demo_unique h
  have := hn n (Nat.le_refl n) flimit rfl rfl (str "limit") (.map [(str "limit", .string (str "many") true)])
    (by simp [lookup, Members.find])
  have h2 : require (convert demo n flimit) flimit.modifiers (str "limit")
      (.map [(str "limit", .string (str "many") true)]) = .error (prefixErrors (str "limit") (.message (str "not an integer")))
      := by cases n <;> rfl
  rw [h2] at this
  cases this

/-- If all fields of an input object have defaults, anything is accepted in its place: here a string. -/
theorem C58_not_an_object :
    let box : InputType := { type := str "Box", fields := [fx] }
    let f : InputField := { type := str "Box", name := str "box", fieldType := .input }
    resolverArguments { enums := [], inputs := [box] } 1 [f] [(str "box", .string (str "?") true)] =
      .ok [(str "box", .leaf (.object [(str "x", .leaf (.int 0))]))] := rfl

/-- `input Loop { next: Loop! = {} }` -/
def fLoop : InputField := { type := str "Loop", name := str "next", fieldType := .input, defaultValue := .map [] }
def loop : Types := { enums := [], inputs := [{ type := str "Loop", fields := [fLoop] }] }

theorem loop_step {conv : Resp → Res Data} (h : conv (.map []) = .depth) :
    getArgument conv (defaults [fLoop]) fLoop (.map []) = .depth := by
  have h1 : require conv [] (str "next") (.map []) = .error (.other (str "Missing Map member")) := rfl
  have h2 : require conv [] (str "next") (defaults [fLoop]) =
      (((conv (.map [])).prefixed (str "next")).map Arg.leaf) := rfl
  have hd : ¬ fLoop.defaultValue.type = .null := nofun
  unfold getArgument
  have h1' : require conv fLoop.modifiers fLoop.name (.map []) = .error (.other (str "Missing Map member")) := h1
  have h2' : require conv fLoop.modifiers fLoop.name (defaults [fLoop]) =
      (((conv (.map [])).prefixed (str "next")).map Arg.leaf) := h2
  rw [h1']
  dsimp only
  rw [if_neg hd, h2', h]
  rfl

/-- The default of the field is an object which has the default of the field: reading any value never ends. -/
theorem C58_default_never_ends (depth : Nat) : resolverArguments loop depth [fLoop] [] = .depth := by
  have hc : convert loop depth fLoop (.map []) = .depth := by
    induction depth with
    | zero => rfl
    | succ n ih =>
      have hf : loop.fields (str "Loop") = [fLoop] := rfl
      show (getArguments (convert loop n) (defaults (loop.fields (str "Loop"))) (loop.fields (str "Loop")) (.map [])).map _ =
        Res.depth
      rw [hf]
      simp only [getArguments, loop_step ih, Res.bind, Res.map]
  simp only [resolverArguments, getArguments, loop_step hc, Res.bind]

/-! ## C59 -/

theorem demo_safe : demo.EnumsSafe := by
  have : ∀ e ∈ demo.enums, ∀ v ∈ e.values, safeName v.value = v.value := by decide +kernel
  exact this

theorem single_of_short {ms : List Mod} (h : ms.length ≤ 1) : ∀ pre post, ms ≠ pre ++ .nullable :: .nullable :: post := by
  rintro pre post rfl
  simp only [List.length_append, List.length_cons] at h
  omega

theorem demo_single : ∀ t ∈ demo.inputs, SingleNullable t.fields := by
  intro t ht f hf
  have : ∀ t ∈ demo.inputs, ∀ f ∈ t.fields, f.modifiers.length ≤ 1 := by decide +kernel
  exact single_of_short (this t ht f hf)

theorem inner_typed {P : Resp → Prop} : Typed demo P .input (str "Point") [] (.leaf (.object innerData)) := by
  refine .object (t := point) (by simp [demo]) rfl (zip_point ?_ ?_ ?_ ?_)
  · exact .int
  · exact .none
  · exact .list (by simp)
  · exact .none

theorem outer_typed {P : Resp → Prop} : Typed demo P .input (str "Point") [] (.leaf (.object outerData)) := by
  refine .object (t := point) (by simp [demo]) rfl (zip_point ?_ ?_ ?_ ?_)
  · exact .int
  · exact .none
  · refine .list ?_
    simp only [List.mem_singleton, forall_eq]
    exact .enum (e := color) (by simp [demo]) (by simp [color])
  · exact .some inner_typed

/-- C59 is not vacuous. -/
example : ∃ n, ∀ depth ≥ n, resolverArguments demo depth [fat, ftag, flimit] (serializeMembers demo [fat, ftag, flimit]
    findData) = .ok findData := by
  refine C59_roundtrip demo_unique demo_safe demo_single (by decide +kernel) ?_ ⟨rfl, ?_⟩
  · intro f hf
    have : ∀ f ∈ [fat, ftag, flimit], f.modifiers.length ≤ 1 := by decide +kernel
    exact single_of_short (this f hf)
  · exact zip_find outer_typed .none .int

/-- `{ colors: [RED] }` as the client builds it. -/
def redList : Verif.Value.Value := .list [.enumValue (str "RED")]
def redValue : Verif.Value.Value := .map [(str "colors", redList)] [0]

theorem redValue_built : Built redValue := by
  have h1 : Built (.enumValue (str "RED")) := Built.set (v := .enumValue []) (p := .string (str "RED")) (Built.ofType .enumValue)
    (by intro w h; cases h)
  have h2 : Built redList := Built.push (Built.ofType .list) h1 rfl
  refine Built.emplaceBack (name := str "colors") (b := true) (Built.ofType .map) h2 ?_
  simp [Value.ofType, Value.emplaceBack, mapEmplaceBack, memberRange, Verif.Std.equalRange, Verif.SortedMap.vectorInsert,
    redValue]

/-- C59_json is not vacuous. -/
example : ∃ calls v' members, Verif.Json.write redValue = .ok calls ∧
    Verif.Json.parseEvents (calls.map Verif.Json.reread) = .ok v' ∧
    tree v' = .map members ∧
    ∃ n, ∀ depth ≥ n, resolverArguments demo depth [fcolors] members = .ok [(str "colors", .list [.leaf (.enum 0)])] := by
  have htree : tree redValue =
      .map (serializeMembers demo [fcolors] [(str "colors", .list [.leaf (.enum 0)])]) := by
    have : safeName (str "RED") = str "RED" := by decide +kernel
    simp [redValue, redList, tree, treeEntries, treeList, serializeMembers, serializeArg, serializeArgs, serialize,
      serializeEnum, Types.values, demo, color, fcolors, this]
  refine C59_json demo_unique demo_safe demo_single (by simp) ?_ ⟨rfl, ?_⟩ redValue_built htree ?_
  · intro f hf
    simp only [List.mem_singleton] at hf
    subst hf
    exact single_of_short (by simp [fcolors])
  · intro f a hx
    simp only [List.map_cons, List.map_nil, List.zip_cons_cons, List.zip_nil_left, List.mem_singleton, Prod.mk.injEq] at hx
    obtain ⟨rfl, rfl⟩ := hx
    refine .list ?_
    simp only [List.mem_singleton, forall_eq]
    exact .enum (e := color) (by simp [demo]) (by simp [color])
  · have h1 : 0#8 ∉ str "RED" := by decide +kernel
    have h2 : 0#8 ∉ str "colors" := by decide +kernel
    simp [redValue, redList, tree, treeEntries, treeList, Verif.Json.Spec.Representable,
      Verif.Json.Spec.RepresentableEntries, Verif.Json.Spec.RepresentableList, h1, h2]

/-- What the service does with a value of an enum which is not its own name in C++: it is refused
(ClientGenerator.cpp:483-489 has the C++ names, SchemaGenerator.cpp:616-629 the names). -/
theorem C59_unsafe_enum :
    let kind : EnumType := { type := str "Kind", values := [{ value := str "IN__USE" }] }
    let T : Types := { enums := [kind], inputs := [] }
    let f : InputField := { type := str "Kind", name := str "kind", fieldType := .enum }
    ∀ depth, resolverArguments T depth [f] (serializeMembers T [f] [(str "kind", .leaf (.enum 0))]) =
      .error (prefixErrors (str "kind") (.message (str "not a valid Kind value"))) := by
  intro kind T f depth
  have : serializeMembers T [f] [(str "kind", .leaf (.enum 0))] = [(str "kind", .enumValue (str "IN_USE"))] := by
    have : safeName (str "IN__USE") = str "IN_USE" := by decide +kernel
    simp [serializeMembers, serializeArg, serialize, serializeEnum, Types.values, T, f, kind, this]
  rw [this]
  cases depth <;> rfl

/-- A null custom scalar, which is not null in C++, is null for the service. -/
theorem C59_null_scalar :
    let f : InputField := { type := str "Any", name := str "any", fieldType := .scalar, modifiers := [.nullable] }
    let T : Types := { enums := [], inputs := [] }
    ∀ depth, resolverArguments T depth [f] (serializeMembers T [f] [(str "any", .some (.leaf (.scalar .null)))]) =
      .ok [(str "any", .none)] := fun _ => rfl

end Verif.Gen.Service
