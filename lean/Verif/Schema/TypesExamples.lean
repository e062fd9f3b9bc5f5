import Verif.Schema.Identity

/-! # A schema: `interface Node { id: ID } type User implements Node { id: ID  friends: [User]! }` -/
namespace Verif.TypeSystem.Example
open Verif.Value Verif.Errors Verif.SortedMap Verif.TypeSystem Verif.TypeSystem.Spec Verif.Ast

def ops : List Op :=
  [.make 1 .scalar (str "ID") [], .addType (str "ID") 1,
   .make 2 .interface (str "Node") (str "things"), .addType (str "Node") 2,
   .make 3 .object (str "User") [], .addType (str "User") 3,
   .addFields 2 [{ name := str "id", type := 1 }],
   .addInterfaces 3 [2],
   .wrap 4 .list 3,
   .wrap 5 .nonNull 4,
   .addFields 3 [{ name := str "id", type := 1, deprecationReason := some (str "old") },
     { name := str "friends", type := 5 }],
   .addQueryType 3]

def schema : Schema := ops.foldl Schema.apply {}

instance (s : Schema) (a : Addr) (ks : List Kind) : Decidable (s.Is a ks) :=
  match h : s.store a with
  | none => isFalse (by rintro ⟨t, ht, _⟩; rw [h] at ht; cases ht)
  | some t => decidable_of_iff (t.kind ∈ ks)
      ⟨fun hk => ⟨t, h, hk⟩, by rintro ⟨t', ht, hk⟩; rw [h] at ht; cases ht; exact hk⟩

instance (s : Schema) (op : Op) : Decidable (op.Valid s) := by
  cases op <;> simp only [Op.Valid] <;> infer_instance

def allValid : Schema → List Op → Bool
  | _, [] => true
  | s, op :: ops => decide (op.Valid s) && allValid (s.apply op) ops

theorem runs_of {ops : List Op} {s : Schema} (h : allValid s ops = true) : Runs s ops (ops.foldl Schema.apply s) := by
  induction ops generalizing s with
  | nil => exact .nil
  | cons op ops ih =>
    simp only [allValid, Bool.and_eq_true, decide_eq_true_eq] at h
    exact .cons h.1 (ih h.2)

theorem runs : Runs {} ops schema := runs_of (by decide +kernel)

/-- The hypotheses of C37 and C38 hold of this schema. -/
theorem built : Built ops schema := runs.built .nil

theorem ownNames : OwnNames ops := by
  refine ⟨by decide, ?_⟩
  intro n a h
  have : added ops = [(str "ID", 1), (str "Node", 2), (str "User", 3)] := by rfl
  rw [this] at h
  simp only [List.mem_cons, Prod.mk.injEq, List.not_mem_nil, or_false] at h
  rcases h with ⟨rfl, rfl⟩ | ⟨rfl, rfl⟩ | ⟨rfl, rfl⟩
  · exact ⟨by decide, .scalar, [], by simp [ops]⟩
  · exact ⟨by decide, .interface, str "things", by simp [ops]⟩
  · exact ⟨by decide, .object, [], by simp [ops]⟩

def user : BaseType := .object (str "User") [] [2]
  [{ name := str "id", type := 1, deprecationReason := some (str "old") }, { name := str "friends", type := 5 }]

def node : BaseType := .interface (str "Node") (str "things") [{ name := str "id", type := 1 }] [3]

/-- `User` has one visible field, and both fields if deprecated ones are included. -/
example : schema.store 3 = some user ∧
    (Introspection.getFields user none).map (·.map (·.name)) = some [str "friends"] ∧
    (Introspection.getFields user (some true)).map (·.map (·.name)) = some [str "id", str "friends"] ∧
    Introspection.getInterfaces user = some [2] ∧
    Introspection.getEnumValues user none = none := by decide +kernel

/-- `Node` has one possible type. -/
example : schema.store 2 = some node ∧ Introspection.getPossibleTypes node = some [3] := by decide +kernel

theorem lookup_user : schema.lookupType (str "User") = .ok 3 := by
  rw [(C37_lookup built _).2]
  have : named ops (str "User") = some 3 := by decide +kernel
  rw [this]

theorem wrapped (k : Kind) (a b f : Addr)
    (h : find Schema.Wrap.addrLess (if k = .list then schema.listWrappers else schema.nonNullWrappers) a = some (a, b)) :
    schema.wrapType k a f = (schema, b) := by
  simp only [Schema.wrapType, h]

/-- The expression for `[User]!` gives the type which was made for the field, and introspection reads `[User]!`. -/
theorem expression : Eval schema (.nonNull (.list (.named (str "User")))) schema 5 ∧
    Reads schema 5 (.nonNull (.list (.named (str "User")))) := by
  have w1 : schema.wrapType .list 3 9 = (schema, 4) := wrapped _ _ _ _ (by decide +kernel)
  have w2 : schema.wrapType .nonNull 4 9 = (schema, 5) := wrapped _ _ _ _ (by decide +kernel)
  have h9 : schema.store 9 = none := by decide +kernel
  have e1 : Eval schema (.list (.named (str "User"))) schema 4 := by
    have := Eval.list (.named lookup_user) h9
    rwa [w1] at this
  have e : Eval schema (.nonNull (.list (.named (str "User")))) schema 5 := by
    have := Eval.nonNull e1 h9
    rwa [w2] at this
  refine ⟨e, ?_⟩
  exact ((C49_type_identity (more := []) (rest := []) built e .nil e .nil ownNames (by simpa using ownNames)
    (by simpa using ownNames)).2.1 _).2 rfl

/-- Finding: calling `AddInterfaces` again replaces the interfaces of the object, but the interface it had before still
lists it among its possible types. -/
theorem stale_possible_type : ∃ ops s, Built ops s ∧ (s.store 3).map Introspection.getInterfaces = some (some []) ∧
    (s.store 2).map Introspection.getPossibleTypes = some (some [3]) :=
  ⟨ops ++ [.addInterfaces 3 []], _, built.snoc (op := .addInterfaces 3 []) (by decide +kernel), by decide +kernel,
    by decide +kernel⟩

/-- Finding: a type which is added under a name which is in use already replaces the other one in `LookupType`, while
`__schema { types }` lists both. -/
theorem replaced_type : ∃ ops s, Built ops s ∧ named ops (str "ID") = some 3 ∧
    Introspection.getTypes s = [1, 2, 3, 3] :=
  ⟨ops ++ [.addType (str "ID") 3], _, built.snoc (op := .addType (str "ID") 3) (by decide +kernel), by decide +kernel,
    by decide +kernel⟩

end Verif.TypeSystem.Example
