import Verif.Gen.OrderClient

/-!
# C42: examples and findings
-/
namespace Verif.Gen.OrderExample
open Verif.Gen Verif.Value Verif.TypeSystem Relation
open Verif.Schema.Wrap (Kind Addr)

/-- The names of the result. -/
def names : Except LoadError (List InputType) → Except LoadError (List Str)
  | .ok r => .ok (r.map (·.type))
  | .error e => .error e

/-- `name: type` with an input type. -/
def field (name type : Str) (modifiers : List Modifiers.Mod) : InputField :=
  { name := name, type := type, fieldType := .input, modifiers := modifiers }

/-- `input A { b: B, c: [C!] } input B { c: C! } input C { n: Int }` -/
def types : List InputType :=
  [{ type := str "A", fields := [field (str "b") (str "B") [.nullable], field (str "c") (str "C") [.nullable, .list]] },
   { type := str "B", fields := [field (str "c") (str "C") []] },
   { type := str "C", fields := [{ name := str "n", type := str "Int", modifiers := [.nullable] }] }]

example : names (reorderInputTypes types) = .ok [str "C", str "B", str "A"] := by decide +kernel

example : (∀ t ∈ types, t.dependencies = []) ∧ (types.map (·.type)).Nodup ∧
    ∀ t ∈ types, ∀ n, t.needs n → ∃ u ∈ types, u.type = n := by
  refine ⟨by decide +kernel, by decide +kernel, ?_⟩
  rintro t ht n ⟨f, hf, h, rfl⟩
  have : ∀ t ∈ types, ∀ f ∈ t.fields, f.fieldType = .input → ∃ u ∈ types, u.type = f.type := by decide +kernel
  exact this t ht f hf h

/-- Finding: `input A { list: [A!] }`, which GraphQL allows, is rejected: any field counts, whatever its modifiers. -/
theorem C42_list_rejected :
    names (reorderInputTypes [{ type := str "A", fields := [field (str "list") (str "A") [.nullable, .list]] }]) =
      .error (.cycle (str "A")) := by decide +kernel

/-- Finding: the type named by the error need not be part of a cycle. -/
theorem C42_wrong_name :
    names (reorderInputTypes
      [{ type := str "A", fields := [field (str "b") (str "B") [.nullable]] },
       { type := str "B", fields := [field (str "b") (str "B") [.nullable]] }]) = .error (.cycle (str "A")) := by
  decide +kernel

/-- `input A { b: B! } input B { n: Int }`: 0 is `A`, 1 is `B`, 2 is `B!`, 3 is `Int`. -/
def schema : Schema :=
  { store := fun
      | 0 => some (.inputObject (str "A") [] [{ name := str "b", type := 2 }])
      | 1 => some (.inputObject (str "B") [] [{ name := str "n", type := 3 }])
      | 2 => some (.wrapper .nonNull 1)
      | 3 => some (.scalar (str "Int") [])
      | _ => none }

theorem collected : CollectInputTypes schema {} [0] { names := [str "A", str "B"], types := [0, 1] } :=
  .new (t := .inputObject (str "A") [] [{ name := str "b", type := 2 }]) rfl rfl (by simp)
    (.wrapper (t := .wrapper .nonNull 1) (b := 1) rfl (.inr rfl) rfl
      (.new (t := .inputObject (str "B") [] [{ name := str "n", type := 3 }]) rfl rfl (by decide +kernel)
        (.other (t := .scalar (str "Int") []) rfl (by decide +kernel) .nil) .nil))
    .nil

theorem unique : UniqueInputs schema := by
  intro a b t u ha hb ht hu hn
  have key : ∀ a t, schema.store a = some t → t.kind = .inputObject →
      (a = 0 ∧ t.name = str "A") ∨ (a = 1 ∧ t.name = str "B") := by
    intro a t ha ht
    match a, ha with
    | 0, ha => cases ha; exact .inl ⟨rfl, rfl⟩
    | 1, ha => cases ha; exact .inr ⟨rfl, rfl⟩
    | 2, ha => cases ha; cases ht
    | 3, ha => cases ha; cases ht
    | n + 4, ha => cases ha
  rcases key a t ha ht with ⟨rfl, h1⟩ | ⟨rfl, h1⟩ <;> rcases key b u hb hu with ⟨rfl, h2⟩ | ⟨rfl, h2⟩
  · rfl
  · rw [h1, h2] at hn; exact absurd hn (by decide +kernel)
  · rw [h1, h2] at hn; exact absurd hn (by decide +kernel)
  · rfl

/-- Finding: the client generator declares `A` before `B` for `input A { b: B! }`: its `struct A` has a member of the type
`B`, which is declared later. -/
theorem C42_client_nonNull : ReorderReferenced schema [0, 1] [0, 1] ∧ Contains schema 0 1 := by
  refine ⟨⟨[⟨0, str "A", []⟩, ⟨1, str "B", []⟩], _, rfl, .round (by simp) .done, rfl⟩, ?_⟩
  exact ⟨_, rfl, rfl, _, List.mem_cons_self .., .wrapper (t := .wrapper .nonNull 1) rfl (.inr rfl) rfl (.self rfl rfl)⟩

end Verif.Gen.OrderExample
