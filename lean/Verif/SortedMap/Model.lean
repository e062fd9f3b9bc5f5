import Verif.Std.EqualRange

/-!
# Model of `sorted_map`, `sorted_set` and `shorter_or_less`

Models `/repo/include/graphqlservice/internal/SortedMap.h`. A `sorted_map<K, V, Compare>` is its vector `_data`
of pairs; `cmp` is `Compare {}`. References and iterators into the vector are modelled by the entry they denote.
-/
namespace Verif.SortedMap
open Verif.Std

/-- `sorted_map::_data`, SortedMap.h:211. -/
abbrev SMap (K V : Type) := List (K × V)

variable {K V : Type}

/-- The `std::equal_range` call shared by all the operations, SortedMap.h:89-94, 111-116, 129-134, 161-166,
180-185. -/
def range (cmp : K → K → Bool) (m : SMap K V) (key : K) : Nat × Nat :=
  equalRange (fun e => cmp e.1 key) (fun e => cmp key e.1) m

/-- `sorted_map::find`, SortedMap.h:87-97; `none` is `end()`. -/
def find (cmp : K → K → Bool) (m : SMap K V) (key : K) : Option (K × V) :=
  let r := range cmp m key
  if r.1 = r.2 then none else m[r.1]?

/-- `std::vector::emplace(position, x)`. -/
def vectorInsert (m : List α) (i : Nat) (x : α) : List α := m.take i ++ x :: m.drop i

/-- `sorted_map::emplace`, SortedMap.h:107-125. -/
def emplace (cmp : K → K → Bool) (m : SMap K V) (key : K) (value : V) : SMap K V × Bool :=
  let r := range cmp m key
  if r.1 ≠ r.2 then (m, false) else (vectorInsert m r.2 (key, value), true)

/-- `sorted_map::erase(const K&)`, SortedMap.h:127-142. -/
def erase (cmp : K → K → Bool) (m : SMap K V) (key : K) : SMap K V :=
  let r := range cmp m key
  if r.1 = r.2 then m else m.eraseIdx r.1

/-- `sorted_map::operator[]`, SortedMap.h:157-174, followed by an update `f` of the referenced value:
`V {}` is `dflt`. Returns the value the reference denoted and the new map. -/
def index (cmp : K → K → Bool) (dflt : V) (m : SMap K V) (key : K) (f : V → V) : SMap K V × V :=
  let r := range cmp m key
  if r.1 ≠ r.2 then
    match m[r.1]? with
    | some (k, v) => (m.set r.1 (k, f v), v)
    | none => (m, dflt)  -- not reachable: `itr` is dereferenceable when it is not `itrEnd`
  else (vectorInsert m r.2 (key, f dflt), dflt)

/-- `sorted_map::at`, SortedMap.h:176-193, `none` is `throw std::out_of_range`. -/
def at? (cmp : K → K → Bool) (m : SMap K V) (key : K) : Option V :=
  let r := range cmp m key
  if r.1 = r.2 then none else m[r.1]?.map (·.2)

/-- `sorted_map(std::initializer_list)`, SortedMap.h:29-35: `std::sort` leaves a permutation which is sorted
(no element is preceded by a greater one); it is not stable, so which permutation is unspecified. -/
def Initialized (cmp : K → K → Bool) (init m : SMap K V) : Prop :=
  init.Perm m ∧ m.Pairwise (fun a b => cmp b.1 a.1 = false)

/-- The calls on a `sorted_map` whose results depend on its contents. -/
inductive Op (K V : Type) where
  | emplace (key : K) (value : V)
  | erase (key : K)
  | index (key : K) (update : V → V)
  | at (key : K)
  | find (key : K)
  | clear

/-- What a call returns. `none` is `end()` or an exception. -/
inductive Out (V : Type) where
  | inserted (b : Bool)
  | value (v : Option V)
  | nothing
deriving DecidableEq, Repr

/-- One call. `clear` is SortedMap.h:52-55. -/
def step (cmp : K → K → Bool) (dflt : V) (m : SMap K V) : Op K V → SMap K V × Out V
  | .emplace k v => let r := emplace cmp m k v; (r.1, .inserted r.2)
  | .erase k => (erase cmp m k, .nothing)
  | .index k f => let r := index cmp dflt m k f; (r.1, .value (some r.2))
  | .at k => (m, .value (at? cmp m k))
  | .find k => (m, .value ((find cmp m k).map (·.2)))
  | .clear => ([], .nothing)

/-- A sequence of calls with all their results. -/
def run (cmp : K → K → Bool) (dflt : V) (m : SMap K V) : List (Op K V) → SMap K V × List (Out V)
  | [] => (m, [])
  | op :: ops =>
    let r := step cmp dflt m op
    let r' := run cmp dflt r.1 ops
    (r'.1, r.2 :: r'.2)

/-! ## `sorted_set` -/

/-- `sorted_set::find`, SortedMap.h:282-290, as membership. -/
def setFind (cmp : K → K → Bool) (s : List K) (key : K) : Option K :=
  let r := equalRange (fun e => cmp e key) (fun e => cmp key e) s
  if r.1 = r.2 then none else s[r.1]?

/-- `sorted_set::emplace`, SortedMap.h:300-316. -/
def setEmplace (cmp : K → K → Bool) (s : List K) (key : K) : List K × Bool :=
  let r := equalRange (fun e => cmp e key) (fun e => cmp key e) s
  if r.1 ≠ r.2 then (s, false) else (vectorInsert s r.2 key, true)

/-- `sorted_set::erase(const K&)`, SortedMap.h:318-333. -/
def setErase (cmp : K → K → Bool) (s : List K) (key : K) : List K :=
  let r := equalRange (fun e => cmp e key) (fun e => cmp key e) s
  if r.1 = r.2 then s else s.eraseIdx r.1

/-- The calls on a `sorted_set`. -/
inductive SetOp (K : Type) where
  | emplace (key : K)
  | erase (key : K)
  | find (key : K)
  | clear

/-- One call on a `sorted_set`; the result is what `emplace().second` or `find() != end()` gives. -/
def setStep (cmp : K → K → Bool) (s : List K) : SetOp K → List K × Option Bool
  | .emplace k => let r := setEmplace cmp s k; (r.1, some r.2)
  | .erase k => (setErase cmp s k, none)
  | .find k => (s, some (setFind cmp s k).isSome)
  | .clear => ([], none)

/-- A sequence of calls on a `sorted_set`. -/
def setRun (cmp : K → K → Bool) (s : List K) : List (SetOp K) → List K × List (Option Bool)
  | [] => (s, [])
  | op :: ops =>
    let r := setStep cmp s op
    let r' := setRun cmp r.1 ops
    (r'.1, r.2 :: r'.2)

/-! ## `shorter_or_less` -/

/-- `shorter_or_less::operator()`, SortedMap.h:352-358. A `std::string_view` is its list of bytes;
`std::string_view::operator<` compares bytes as `unsigned char`, lexicographically. -/
def shorterOrLess (lhs rhs : List UInt8) : Bool :=
  if lhs.length = rhs.length then decide (lhs < rhs) else decide (lhs.length < rhs.length)

end Verif.SortedMap
