import Verif.Value.Model

/-!
# Specification of objects and of value trees

An object is an association list in order of first insertion. `Tree` is what a response value means: the tree
of data without the index that the implementation keeps beside every object.
-/
namespace Verif.Value.Spec
variable {V : Type}

/-- Adding a member: the first value added under a name wins. -/
def add (l : List (Str × V)) (e : Str × V) : List (Str × V) :=
  if l.any (fun x => x.1 == e.1) then l else l ++ [e]

/-- The object after adding members one after another. -/
def addAll (l : List (Str × V)) (es : List (Str × V)) : List (Str × V) := es.foldl add l

/-- Which of the additions were new names. -/
def addedNew (seen : List Str) : List (Str × V) → List Bool
  | [] => []
  | (n, _) :: rest => (!seen.contains n) :: addedNew (n :: seen) rest

/-- The value of a member. -/
def lookup (l : List (Str × V)) (name : Str) : Option V := (l.find? (fun x => x.1 == name)).map (·.2)

end Verif.Value.Spec
