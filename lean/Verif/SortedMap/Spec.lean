import Verif.SortedMap.Model
/-!
# What a finite map and a finite set are

The specification of `sorted_map`: a function from keys to optional values, which does not distinguish
equivalent keys. Only the types `Op`, `SetOp` and `Out` of calls and results are shared with the model.
-/
namespace Verif.SortedMap.Spec

/-- A comparison function as required by the C++ standard for sorting (strict weak order). -/
structure StrictWeak (cmp : K → K → Bool) : Prop where
  irrefl : ∀ a, cmp a a = false
  trans : ∀ a b c, cmp a b = true → cmp b c = true → cmp a c = true
  /-- being incomparable is transitive -/
  incomp : ∀ a b c, cmp a b = false → cmp b a = false → cmp b c = false → cmp c b = false →
    cmp a c = false ∧ cmp c a = false

/-- Keys which the comparison does not distinguish. -/
def same (cmp : K → K → Bool) (a b : K) : Bool := !cmp a b && !cmp b a

/-- Finite maps: the value of each key. -/
abbrev Map (K V : Type) := K → Option V

/-- The meaning of each call on a finite map. -/
def step (cmp : K → K → Bool) (dflt : V) (s : Map K V) : Op K V → Map K V × Out V
  | .emplace k v =>
    if (s k).isSome then (s, .inserted false)
    else (fun x => if same cmp x k then some v else s x, .inserted true)
  | .erase k => (fun x => if same cmp x k then none else s x, .nothing)
  | .index k f =>
    let old := (s k).getD dflt
    (fun x => if same cmp x k then some (f old) else s x, .value (some old))
  | .at k => (s, .value (s k))
  | .find k => (s, .value (s k))
  | .clear => (fun _ => none, .nothing)

/-- A sequence of calls. -/
def run (cmp : K → K → Bool) (dflt : V) (s : Map K V) : List (Op K V) → Map K V × List (Out V)
  | [] => (s, [])
  | op :: ops =>
    let r := step cmp dflt s op
    let r' := run cmp dflt r.1 ops
    (r'.1, r.2 :: r'.2)

/-- The meaning of each call on a finite set. -/
def setStep (cmp : K → K → Bool) (s : K → Bool) : SetOp K → (K → Bool) × Option Bool
  | .emplace k => (fun x => same cmp x k || s x, some (!s k))
  | .erase k => (fun x => !same cmp x k && s x, none)
  | .find k => (s, some (s k))
  | .clear => (fun _ => false, none)

/-- A sequence of calls on a set. -/
def setRun (cmp : K → K → Bool) (s : K → Bool) : List (SetOp K) → (K → Bool) × List (Option Bool)
  | [] => (s, [])
  | op :: ops =>
    let r := setStep cmp s op
    let r' := setRun cmp r.1 ops
    (r'.1, r.2 :: r'.2)

end Verif.SortedMap.Spec
