import Verif.Request.Props
import Verif.Exec.Examples

/-!
# Concrete requests
-/
namespace Verif.Request.Demo
open Verif.Value Verif.Resp Verif.Errors Verif.Ast Verif.Exec Verif.Request.Spec Verif.Exec.Demo

/-- Object 0 is the root of queries, 100 of mutations. The validator accepts everything. -/
def S : Service Str Nat where
  impl := I
  operations := fun t => if t = str "query" then some (some 0) else if t = str "mutation" then some (some 100) else none
  validate := fun _ => []
  atoiOverflow := id

/-- `query A($x: Int = 5, $y: Int) { a ...F }  mutation B { a }  fragment F on T { b: a @include(if: $x) }` -/
def doc : Document where
  definitions := [
    .operation ⟨⟨1, 1⟩, some (str "query"), some (str "A"),
      [⟨str "x", .named (str "Int"), some (.int 5)⟩, ⟨str "y", .named (str "Int"), none⟩], none,
      [.leaf (f "a"), .spread ⟨1, 9⟩ (str "F") none]⟩,
    .operation ⟨⟨2, 1⟩, some (str "mutation"), some (str "B"), [], none, [.leaf (f "a")]⟩,
    .operation ⟨⟨3, 1⟩, some (str "subscription"), some (str "C"), [], none, [.leaf (f "a")]⟩,
    .fragment ⟨⟨4, 1⟩, str "F", str "T", none, [.leaf (fa "b" "a")]⟩]

/-- C22: the operation is selected by its name. -/
example : resolve S false doc (str "A") [] = .done ⟨[str "a", str "a"],
    .ok (.map [(str "data", .map [(str "a", .int 0), (str "b", .int 0)])])⟩ := rfl
example : resolve S false doc (str "B") [] = .done ⟨[str "a"], .ok (.map [(str "data", .map [(str "a", .int 100)])])⟩ := rfl
example : resolve S false doc (str "C") [] = .done (.pure (failed
    [{ message := str "Unexpected subscription name: C", location := ⟨3, 1⟩ }])) := rfl
example : resolve S false doc (str "D") [] = .done (.pure (failed [{ message := str "Missing operation name: D" }])) := rfl

/-- C23: supplied, default, null, not visible. -/
example : operationVariables ⟨[(str "z", .int 1)], id⟩
    [⟨str "x", .named (str "Int"), some (.int 5)⟩, ⟨str "y", .named (str "Int"), none⟩] [] =
      .ok [(str "x", .int 5), (str "y", .null)] := rfl
example : operationVariables ⟨[(str "x", .null), (str "y", .int 1)], id⟩
    [⟨str "x", .named (str "Int"), some (.int 5)⟩, ⟨str "y", .named (str "Int"), none⟩] [] =
      .ok [(str "x", .null), (str "y", .int 1)] := rfl

/-- A service with the same resolvers whose validator accepts nothing. -/
def strict : Service Str Nat := { S with validate := fun _ => [{ message := str "no" }] }

/-- C31: rejected twice, then accepted, then never checked again. -/
example : validations doc [strict, strict, S, strict, S] false = [[{ message := str "no" }], [{ message := str "no" }], [], [], []] :=
  C31_validate_again (rejecting := [strict, strict]) (later := [strict, S]) (by simp [strict]) rfl

/-- C31 finding: the flag belongs to the document, not to a service: a document which one service has validated is executed
by another one whose validator would reject it. -/
theorem C31_other_service :
    (validate S doc false).2 = true ∧ strict.validate doc ≠ [] ∧
    resolve strict false doc (str "B") [] = .done (.pure (failed [{ message := str "no" }])) ∧
    resolve strict (validate S doc false).2 doc (str "B") [] =
      .done ⟨[str "a"], .ok (.map [(str "data", .map [(str "a", .int 100)])])⟩ :=
  ⟨rfl, by simp [strict], rfl, rfl⟩

/-- C22 finding: without a name, a document with several operations is not an error: the first one is executed. -/
theorem C22_no_name_runs_first : resolve S false doc [] [] = resolve S false doc (str "A") [] := rfl

/-- C22 finding: what fails at the root of the operation itself is not reported in a document, the future throws:
`{ a @skip(if: $v) }` where `v` has no value. -/
theorem C22_root_failure_escapes : resolve S false ⟨[.operation ⟨⟨1, 1⟩, none, none, [⟨str "v", .named (str "Boolean"), none⟩], none,
      [.leaf { f "a" with directives := dir "skip" (.variable ⟨1, 9⟩ (str "v")) }]⟩]⟩ [] [] =
    .done (.throw (.message (str "Invalid argument to directive: skip name: if"))) := rfl

/-- C23 finding: the directives of a fragment definition are evaluated with the supplied variables alone, without the
defaults of the operation: `query ($x: Int = 5) { ...F }  fragment F on T @d(a: $x) { a }` fails. -/
theorem C23_fragment_directives_without_defaults :
    resolve S false ⟨[
      .operation ⟨⟨1, 1⟩, some (str "query"), none, [⟨str "x", .named (str "Int"), some (.int 5)⟩], none,
        [.spread ⟨1, 9⟩ (str "F") none]⟩,
      .fragment ⟨⟨4, 1⟩, str "F", str "T", some [⟨str "d", some [(str "a", .variable ⟨4, 20⟩ (str "x"))]⟩],
        [.leaf (f "a")]⟩]⟩ [] [] =
    .done (.pure (failed [{ message := str "Unknown variable name: x", location := ⟨4, 20⟩ }])) := rfl

end Verif.Request.Demo
