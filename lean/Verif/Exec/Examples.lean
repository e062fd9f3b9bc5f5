import Verif.Exec.PathProps
import Verif.Exec.TraceProps

/-!
# Concrete executions

A small service: the hypotheses of the theorems are met by it, and some of the stronger claims one might expect are not
true.
-/
namespace Verif.Exec.Demo
open Verif.Value Verif.Resp Verif.Errors Verif.Ast

/-- A resolver which records its call. -/
def field (event : Str) (t : OutType) (x : Out Nat) : Resolver Str Nat where
  type := t
  access := fun _ => ⟨[event], .ok (.value x)⟩

/-- Object `n` has a leaf, a failing leaf, a child object, the same as an interface, a list of children, a list of
nullable leaves. -/
def I : Impl Str Nat where
  typeNames := fun _ => [str "T"]
  resolver := fun n name =>
    if name = str "a" then some (field (str "a") .leaf (.leaf (.int n)))
    else if name = str "bad" then some { type := .leaf, access := fun _ => ⟨[str "bad"], .error (.other (str "boom"))⟩ }
    else if name = str "child" then some (field (str "child") (.object false) (.object (some (n + 1))))
    else if name = str "node" then some (field (str "node") (.object true) (.object (some (n + 1))))
    else if name = str "many" then
      some (field (str "many") (.list (.object false)) (.list [.object (some 7), .object (some 8)]))
    else if name = str "tags" then
      some (field (str "tags") (.list (.nullable .leaf)) (.list [.present (.leaf (.int 1)), .absent]))
    else if name = str "colors" then
      some (field (str "colors") (.list .enum) (.list [.leaf (.enumValue (str "RED")), .leaf (.enumValue (str "BLUE"))]))
    else if name = str "none" then some (field (str "none") (.nullable .leaf) .absent)
    else if name = str "late" then some { type := .leaf, access := fun _ =>
      ⟨[str "late"], .ok (.future [str "later"] (.error (.schema [{ message := str "no" }])))⟩ }
    else none
  beginSet := fun _ _ => .pure ()
  endSet := fun _ _ => .pure ()

def env : Env := ⟨[(str "v", .null)], id⟩
def top : SetParams := { context := .query, operationDirectives := [], fragmentDirectives := {}, errorPath := none }
def f (name : String) : Field := { pos := ⟨1, 1⟩, name := str name }
def fa (as name : String) : Field := { pos := ⟨1, 1⟩, «alias» := some (str as), name := str name }
def dir (name : String) (l : Lit) : Option (List Directive) :=
  some [{ name := str name, arguments := some [(str "if", l)] }]

theorem noUserPaths : NoUserPaths I := by
  refine ⟨?_, by simp [I, Run.pure], by simp [I, Run.pure]⟩
  intro o name resolver h params
  simp only [I] at h
  repeat' split at h
  all_goals first
    | (simp only [Option.some.injEq] at h; subst h; simp [field, ExnAll])
    | simp at h

/-- `{ a  x: bad  ... on T { b: a  a }  child { a bad } }`: C13, C14 and C11 apply, with a failing field. -/
theorem example_execute :
    (execute I env 0 top [.leaf (f "a"), .leaf (fa "x" "bad"),
      .inline (some (str "T")) none [.leaf (fa "b" "a"), .leaf (f "a")],
      .node (f "child") ⟨2, 2⟩ [.leaf (f "a"), .leaf (f "bad")]]).result = .ok {
        data := .map [(str "a", .int 0), (str "x", .null), (str "b", .int 0),
          (str "child", .map [(str "a", .int 1), (str "bad", .null)])]
        errors := [
          { message := str "Field error name: x unknown error: boom", location := ⟨1, 1⟩, path := [.name (str "x")] },
          ⟨str "Field error name: bad unknown error: boom", ⟨1, 1⟩, [.name (str "child"), .name (str "bad")]⟩] } := rfl

/-- The hypothesis of C13_all_names holds in that example. -/
example : ∀ v ∈ (selected I env 0 top [.leaf (f "a"), .inline (some (str "T")) none [.leaf (fa "b" "a"), .leaf (f "a")]]).1,
    skips env v.field.directives = .ok false := by
  have : (selected I env 0 top [.leaf (f "a"), .inline (some (str "T")) none [.leaf (fa "b" "a"), .leaf (f "a")]]).1 =
    [⟨f "a", none, {}⟩, ⟨fa "b" "a", none, {}⟩, ⟨f "a", none, {}⟩] := rfl
  rw [this]
  intro v hv
  simp only [List.mem_cons, List.not_mem_nil, or_false] at hv
  rcases hv with rfl | rfl | rfl <;> rfl

/-- C14_failure applies to `bad`. -/
example : (executeAlone I env 0 top ⟨f "bad", none, {}⟩).result = .ok {
    data := .map [(str "bad", .null)]
    errors := [⟨str "Field error name: bad unknown error: boom", ⟨1, 1⟩, [.name (str "bad")]⟩] } :=
  C14_failure (resolver := { type := .leaf, access := fun _ => ⟨[str "bad"], .error (.other (str "boom"))⟩ })
    (args := []) (e := .other (str "boom")) ⟨rfl, rfl⟩ rfl rfl rfl rfl

/-- C13 finding: a skipped field takes its response name with it. `{ a @skip(if: true)  a }` has no member `a`, although
the second selection is not skipped. -/
theorem C13_skipped_name_lost :
    ∃ xs : List XSelection, (∃ r, (execute I env 0 top xs).result = .ok r ∧ r.data = .map []) ∧
      ∃ v ∈ (selected I env 0 top xs).1, v.name = str "a" ∧ skips env v.field.directives = .ok false :=
  ⟨[.leaf { f "a" with directives := dir "skip" (.boolean true) }, .leaf (f "a")], ⟨_, rfl, rfl⟩,
    ⟨f "a", none, {}⟩, by
      rw [show (selected I env 0 top [.leaf { f "a" with directives := dir "skip" (.boolean true) }, .leaf (f "a")]).1 =
        [⟨{ f "a" with directives := dir "skip" (.boolean true) }, none, {}⟩, ⟨f "a", none, {}⟩] from rfl]
      simp, rfl, rfl⟩

/-- C13 finding: two fields with the same response name are not merged, the second one is ignored with its
sub-selections: `{ child { a } child { b: a } }`. (The validator accepts it, C33.) -/
theorem C13_not_merged : (execute I env 0 top [.node (f "child") ⟨1, 1⟩ [.leaf (f "a")],
    .node (f "child") ⟨1, 1⟩ [.leaf (fa "b" "a")]]).result =
      .ok { data := .map [(str "child", .map [(str "a", .int 1)])] } := rfl

/-- C14 finding: a malformed directive of one field makes the whole selection set fail, not only that field:
`{ a  b: a @skip(if: $v) }` with `v` null. -/
theorem C14_directive_fails_parent :
    (execute I env 0 top [.leaf (f "a"), .leaf { fa "b" "a" with directives := dir "skip" (.variable ⟨1, 9⟩ (str "v")) }]).result
      = .error (.message (str "Invalid argument to directive: skip name: if")) := rfl

/-- C11 finding: an exception which comes out of a future has no path and no position. -/
theorem C11_future_without_path : (execute I env 0 top [.leaf (f "late")]).result =
    .ok { data := .map [(str "late", .null)], errors := [{ message := str "no" }] } := rfl

/-- C11: the path of an unknown field is the path of its parent. -/
theorem C11_unknown_field : (execute I env 0 top [.node (f "child") ⟨1, 1⟩ [.leaf (f "zzz")]]).result =
    .ok {
      data := .map [(str "child", .map [(str "zzz", .null)])]
      errors := [{ message := str "Unknown field name: zzz", location := ⟨1, 1⟩, path := [.name (str "child")] }] } := rfl

/-- C18 applies: a list of nullable values. -/
example : (execute I env 0 top [.leaf (f "tags")]).result =
    .ok { data := .map [(str "tags", .list [.int 1, .null])] } := rfl

/-- The hypotheses of C18_shape hold for a list of objects. -/
example : HasType (.list (.object false)) (.list [.object (some 7), .object (none : Option Nat)]) ∧
    ∃ objects : Nat → SetParams → Result, ∀ o set,
      ((resolveObject I (visitAll I env [.leaf (f "a")]) o set).bind fun f => f).result = .ok (objects o set) :=
  ⟨by simp [HasType, HasTypes], fun n _ => { data := .map [(str "a", .int n)] }, fun _ _ => rfl⟩

/-- C18 finding: elements whose selection set fails as a whole are dropped, so the list becomes shorter, and the indices
of the rest no longer agree with those in error paths. -/
theorem C18_elements_dropped : (execute I env 0 top [.node (f "many") ⟨1, 1⟩
      [.leaf { f "a" with directives := dir "skip" (.variable ⟨1, 9⟩ (str "v")) }]]).result =
    .ok { data := .map [(str "many", .list [])], errors := [
      { message := str "Invalid argument to directive: skip name: if" },
      { message := str "Invalid argument to directive: skip name: if" }] } := rfl

/-- C19 applies to `{ a { a } }` and to `{ child }`. -/
example : (execute I env 0 top [.node (f "a") ⟨3, 3⟩ [.leaf (f "a")], .leaf (f "child")]).result =
    .ok { data := .map [(str "a", .null), (str "child", .null)], errors := [
      { message := str "Field may not have sub-fields name: a", location := ⟨3, 3⟩, path := [.name (str "a")] },
      { message := str "Field must have sub-fields name: child", location := ⟨1, 1⟩, path := [.name (str "child")] }] } :=
  rfl

/-- C19 finding: if the value is absent, then the selection set of a leaf field is not reported, and the accessor is
called in any case. -/
theorem C19_absent_not_reported : (execute I env 0 top [.node (f "none") ⟨3, 3⟩ [.leaf (f "a")]]) =
    ⟨[str "none"], .ok { data := .map [(str "none", .null)] }⟩ := rfl

/-- C19 finding: `{ colors { a } }` is answered as if it were `{ colors }`. -/
example : (execute I env 0 top [.node (f "colors") ⟨3, 3⟩ [.leaf (f "a")]]) =
    ⟨[str "colors"], .ok { data := .map [(str "colors", .list [.enumValue (str "RED"), .enumValue (str "BLUE")])] }⟩ := rfl

/-- C21_serial applies to `{ a  tags  n: node { a } }`: everything runs in document order. -/
example : (execute I env 0 top [.leaf (f "a"), .node (fa "n" "node") ⟨1, 1⟩ [.leaf (f "a"), .leaf (f "tags")],
    .leaf (f "tags")]).trace = [str "a", str "node", str "a", str "tags", str "tags"] := rfl

example : Immediate I 0 (str "a") ∧ Immediate I 0 (str "node") := by
  constructor
  · intro r h
    rw [show I.resolver 0 (str "a") = some (field (str "a") .leaf (.leaf (.int 0))) from rfl] at h
    simp only [Option.some.injEq] at h
    subst h
    exact ⟨.inl rfl, by intro p r h; simp [field] at h; subst h; rfl⟩
  · intro r h
    rw [show I.resolver 0 (str "node") = some (field (str "node") (.object true) (.object (some 1))) from rfl] at h
    simp only [Option.some.injEq] at h
    subst h
    exact ⟨.inr rfl, by intro p r h; simp [field] at h; subst h; rfl⟩

/-- C21 finding: fields of object types are not completed before the next one is started, not even for a mutation:
`mutation { child { bad } a }` runs `a` before `bad`. -/
theorem C21_objects_deferred :
    (execute I env 0 { top with context := .mutation } [.node (f "child") ⟨1, 1⟩ [.leaf (f "bad")], .leaf (f "a")]).trace =
      [str "child", str "a", str "bad"] := rfl

end Verif.Exec.Demo
