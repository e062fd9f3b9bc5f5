import Verif.Gen.Response
import Verif.Validation.SetSpec
import Verif.Gen.TypesProps

/-!
# What the response type has to be

The fields which a selection set selects, with those of all its fragments, and the members of the generated structure.
-/
namespace Verif.Gen.Client
open Verif.Value Verif.Errors Verif.Ast Verif.Modifiers
open Verif.Validation (Schema baseName)

/-- A field where it is written: the type it is selected on, and its selections. -/
structure Selected where
  on : Str
  field : Field
  sub : Option (List Selection)

/-- The response name. -/
def Selected.name (o : Selected) : Str := Exec.responseName o.field

/-- `Flat fragments type sel os`: `os` are the fields in the selections in the order of the text, where every fragment is
replaced by what is in it, whatever its type. (An inline fragment without a type condition has the type around it.) -/
inductive Flat (fragments : List FragmentDef) : Str → List Selection → List Selected → Prop where
  | nil {type} : Flat fragments type [] []
  | leaf {type f rest os} : Flat fragments type rest os → Flat fragments type (.leaf f :: rest) (⟨type, f, none⟩ :: os)
  | node {type f pos sub rest os} : Flat fragments type rest os →
      Flat fragments type (.node f pos sub :: rest) (⟨type, f, some sub⟩ :: os)
  | spread {type pos name ds fragment rest os os'} : fragments.find? (fun f => f.name == name) = some fragment →
      Flat fragments fragment.typeCondition fragment.sub os → Flat fragments type rest os' →
      Flat fragments type (.spread pos name ds :: rest) (os ++ os')
  | inline {type pos t ds sub rest os os'} : Flat fragments (if t.getD [] = [] then type else t.getD []) sub os → Flat fragments type rest os' →
      Flat fragments type (.inline pos t ds sub :: rest) (os ++ os')

/-- The first one of each response name. -/
def firsts : List Selected → List Selected
  | [] => []
  | o :: os => o :: (firsts os).filter fun p => p.name ≠ o.name

/-- The type of a field: that of the schema, or one of the introspection fields. The type of `__schema` is not required to
be there. -/
inductive TypeIs (S : Schema) (type : Str) : Str → TypeRef → Prop where
  | typename : TypeIs S type (str "__typename") (.nonNull (.named (str "String")))
  | schema (h : S.introspection = true) (hq : type = S.query) : TypeIs S type (str "__schema") (.named (str "__Schema"))
  | type (h : S.introspection = true) (hq : type = S.query) : TypeIs S type (str "__type") (.named (str "__Type"))
  | field {t f} (ht : (type, t) ∈ S.types) (hf : f ∈ t.fields) (hn : f.name ≠ str "__typename")
      (hm : S.introspection = true → type = S.query → f.name ≠ str "__schema" ∧ f.name ≠ str "__type") :
      TypeIs S type f.name f.type

/-- `Members S fragments type sel fields`: the structure for the selections `sel` on `type` has the members `fields`: one
for each response name, in the order of the first fields with them, with the type of this field; if it is composite, with
the members for its selections. -/
inductive Members (S : Schema) (fragments : List FragmentDef) : Str → List Selection → List ResponseField → Prop where
  | mk {type sel os} {fields : List ResponseField} (hflat : Flat fragments type sel os)
      (hnames : fields.map (·.name) = (firsts os).map (·.name))
      (htypes : ∀ (o : Selected) (f : ResponseField), (o, f) ∈ (firsts os).zip fields → f.pos = o.field.pos ∧
        ∃ τ, TypeIs S o.on o.field.name τ ∧ f.type = baseName τ ∧ ModifiersOf τ f.modifiers)
      (hleaf : ∀ (o : Selected) (f : ResponseField), (o, f) ∈ (firsts os).zip fields →
        o.sub = none ∨ S.isComposite f.type = false → f.children = [])
      (hchildren : ∀ (o : Selected) (f : ResponseField) sub, (o, f) ∈ (firsts os).zip fields → o.sub = some sub →
        S.isComposite f.type = true → Members S fragments f.type sub f.children) :
      Members S fragments type sel fields

/-- Somewhere in the selections, or in the fragments which they reach, there is an inline fragment with an empty type
condition. The grammar does not allow that. -/
inductive EmptyCondition (fragments : List FragmentDef) : List Selection → Prop where
  | here {sel pos ds sub} (hm : .inline pos (some []) ds sub ∈ sel) : EmptyCondition fragments sel
  | node {sel f pos sub} (hm : .node f pos sub ∈ sel) (h : EmptyCondition fragments sub) : EmptyCondition fragments sel
  | inline {sel pos t ds sub} (hm : .inline pos t ds sub ∈ sel) (h : EmptyCondition fragments sub) :
      EmptyCondition fragments sel
  | spread {sel pos g ds fragment} (hm : .spread pos g ds ∈ sel)
      (hf : fragments.find? (fun f => f.name == g) = some fragment) (h : EmptyCondition fragments fragment.sub) :
      EmptyCondition fragments sel

end Verif.Gen.Client
