import Verif.Gen.Loaded
import Verif.Gen.TypesProps
import Mathlib.Logic.Relation

/-!
# What clientgen has to collect from a request: specification
-/
namespace Verif.Gen.Client
open Verif.Value Verif.Resp Verif.Errors Verif.Ast Verif.Modifiers
open Verif.Validation (Schema baseName)

/-- The input object `a` has a field whose type, without lists and non-null, is `b`. -/
def HasField (S : Schema) (a b : Str) : Prop :=
  ∃ t, S.find a = some t ∧ t.kind = .inputObject ∧ ∃ f ∈ t.inputFields, baseName f.type = b

/-- The type is that of a variable, or that of a field of such a type, or of a field of a field, and so on. -/
def InVariables (S : Schema) (ds : List VarDef) (n : Str) : Prop :=
  ∃ d ∈ ds, Relation.ReflTransGen (HasField S) (baseName d.type) n

/-- The type is that of a field of the response, at any depth. -/
inductive InResponse (n : Str) : List ResponseField → Prop where
  | here {f fs} : f ∈ fs → f.type = n → InResponse n fs
  | deeper {f fs} : f ∈ fs → InResponse n f.children → InResponse n fs

/-- Only composite types have something below them. -/
inductive ProperFields (S : Schema) : List ResponseField → Prop where
  | mk {fs : List ResponseField} : (∀ f ∈ fs, f.children ≠ [] → S.isComposite f.type = true) → (∀ f ∈ fs, ProperFields S f.children) → ProperFields S fs

/-- What `clientgen` knows of a variable is what the request declares: the name, the type (its name and modifiers), and the
value of its default, which is the value the same literal has as an argument if there are no variables in it. -/
structure Declares (atoi : Int → Int) (d : VarDef) (v : RequestVariable) : Prop where
  name : v.name = d.name
  type : v.type = baseName d.type
  modifiers : ModifiersOf d.type v.modifiers
  default : v.default = d.default.map (defaultValue atoi)

/-- A default which is a variable itself. -/
def VariableDefault (d : VarDef) : Prop := ∃ pos name, d.default = some (.variable pos name)

end Verif.Gen.Client
