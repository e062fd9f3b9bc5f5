import Verif.Request.Model

/-!
# Specification of requests
-/
namespace Verif.Request.Spec
open Verif.Value Verif.Resp Verif.Errors Verif.Ast Verif.Exec Verif.Request

/-- `op` is the operation asked for: the first one if no name is given, else the first one of that name. -/
def Selects (ops : List Operation) (name : Str) (op : Operation) : Prop :=
  ∃ before after, ops = before ++ op :: after ∧
    ((name = [] ∧ before = []) ∨ (name ≠ [] ∧ op.name = some name ∧ ∀ o ∈ before, o.name ≠ some name))

/-- The first definition of a name. -/
def firstFragment (fs : List FragmentDef) (name : Str) : Option FragmentDef := fs.find? fun f => f.name == name

/-- The first declaration of a variable. -/
def declaration (ds : List VarDef) (name : Str) : Option VarDef := ds.find? fun d => d.name == name

/-- `Expands frags s x`: `x` is the selection `s` with every spread of a fragment replaced by that fragment's selections,
to any depth. -/
inductive Expands (frags : FragmentMap) : Selection → XSelection → Prop where
  | leaf (f : Field) : Expands frags (.leaf f) (.leaf f)
  | node (f : Field) (pos : Loc) (sub : List Selection) (xs : List XSelection) (hlen : sub.length = xs.length)
      (h : ∀ (i : Nat) s x, sub[i]? = some s → xs[i]? = some x → Expands frags s x) : Expands frags (.node f pos sub) (.node f pos xs)
  | unknown (pos : Loc) (name : Str) (ds : Option (List Directive)) (h : frags.find name = none) :
      Expands frags (.spread pos name ds) (.unknownSpread pos name)
  | spread (pos : Loc) (name : Str) (ds : Option (List Directive)) (fragment : Fragment) (xs : List XSelection)
      (hf : frags.find name = some fragment) (hlen : fragment.sub.length = xs.length)
      (h : ∀ (i : Nat) s x, fragment.sub[i]? = some s → xs[i]? = some x → Expands frags s x) :
      Expands frags (.spread pos name ds) (.spread fragment.info ds xs)
  | inline (pos : Loc) (t : Option Str) (ds : Option (List Directive)) (sub : List Selection) (xs : List XSelection)
      (hlen : sub.length = xs.length) (h : ∀ (i : Nat) s x, sub[i]? = some s → xs[i]? = some x → Expands frags s x) :
      Expands frags (.inline pos t ds sub) (.inline t ds xs)

/-- The same for lists. -/
def ExpandsAll (frags : FragmentMap) (ss : List Selection) (xs : List XSelection) : Prop :=
  ss.length = xs.length ∧ ∀ (i : Nat) s x, ss[i]? = some s → xs[i]? = some x → Expands frags s x

end Verif.Request.Spec
