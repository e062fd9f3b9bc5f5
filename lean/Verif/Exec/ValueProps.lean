import Verif.Exec.Model
import Verif.Value.Spec

/-!
# C15 and C16: directives and argument values
-/
namespace Verif.Exec
open Verif.Value Verif.Resp Verif.Errors Verif.Ast

/-! ## Specification -/

mutual
/-- The variables used in a literal, in the order in which they are written. -/
def varsOf : Lit → List (Loc × Str)
  | .variable pos name => [(pos, name)]
  | .list xs => varsOfList xs
  | .object fields => varsOfFields fields
  | _ => []
def varsOfList : List Lit → List (Loc × Str)
  | [] => []
  | x :: xs => varsOf x ++ varsOfList xs
def varsOfFields : List (Str × Lit) → List (Loc × Str)
  | [] => []
  | (_, x) :: xs => varsOf x ++ varsOfFields xs
end

mutual
/-- The value written: every variable replaced by its value, everything else as it is. If a name is given twice in an
object, the first value counts. -/
def written (vars : Str → Option Resp) : Lit → Resp
  | .variable _ name => (vars name).getD .null
  | .int n => .int n
  | .float d => .float d
  | .string s => .string s false
  | .boolean b => .boolean b
  | .null => .null
  | .enumValue s => .enumValue s
  | .list xs => .list (writtenList vars xs)
  | .object fields => .map (Verif.Value.Spec.addAll [] (writtenFields vars fields))
def writtenList (vars : Str → Option Resp) : List Lit → List Resp
  | [] => []
  | x :: xs => written vars x :: writtenList vars xs
def writtenFields (vars : Str → Option Resp) : List (Str × Lit) → List (Str × Resp)
  | [] => []
  | (n, x) :: xs => (n, written vars x) :: writtenFields vars xs
end

mutual
/-- Every integer in the literal is a 32 bit integer. -/
def IntsFit : Lit → Prop
  | .int n => -2 ^ 31 ≤ n ∧ n < 2 ^ 31
  | .list xs => IntsFitList xs
  | .object fields => IntsFitFields fields
  | _ => True
def IntsFitList : List Lit → Prop
  | [] => True
  | x :: xs => IntsFit x ∧ IntsFitList xs
def IntsFitFields : List (Str × Lit) → Prop
  | [] => True
  | (_, x) :: xs => IntsFit x ∧ IntsFitFields xs
end

/-- The error for an unknown variable, with its location. -/
def unknownVariable (v : Loc × Str) : Exn :=
  .schema [{ message := str "Unknown variable name: " ++ v.2, location := v.1 }]

/-- The first variable in a list which has no value. -/
def firstUnknown (env : Env) (vs : List (Loc × Str)) : Option (Loc × Str) :=
  vs.find? fun v => (env.variables.find v.2).isNone

/-! ## C16 -/

theorem emplace_eq_add (ms : Members) (n : Str) (v : Resp) : ms.emplace n v = Verif.Value.Spec.add ms (n, v) := rfl

theorem firstUnknown_append (env : Env) (a b : List (Loc × Str)) :
    firstUnknown env (a ++ b) = (firstUnknown env a).or (firstUnknown env b) := by
  simp [firstUnknown, List.find?_append]

mutual
theorem evalLit_eq (env : Env) : (l : Lit) → IntsFit l → evalLit env l =
    match firstUnknown env (varsOf l) with
    | some v => .error (unknownVariable v)
    | none => .ok (written env.variables.find l)
  | .variable pos name, _ => by
    simp only [evalLit, visitVariable, varsOf, firstUnknown, List.find?, written]
    cases env.variables.find name <;> simp [unknownVariable]
  | .int n, h => by
    simp only [IntsFit] at h
    have : env.atoi n = n := by rw [Env.atoi, if_pos h]
    simp [evalLit, varsOf, firstUnknown, written, this]
  | .float d, _ => by simp [evalLit, varsOf, firstUnknown, written]
  | .string s, _ => by simp [evalLit, varsOf, firstUnknown, written]
  | .boolean b, _ => by simp [evalLit, varsOf, firstUnknown, written]
  | .null, _ => by simp [evalLit, varsOf, firstUnknown, written]
  | .enumValue s, _ => by simp [evalLit, varsOf, firstUnknown, written]
  | .list xs, h => by
    simp only [IntsFit] at h
    rw [evalLit, evalList_eq env xs [] h, varsOf, written]
    cases firstUnknown env (varsOfList xs) <;> simp
  | .object fs, h => by
    simp only [IntsFit] at h
    rw [evalLit, evalArgs_eq env fs [] h, varsOf, written]
    cases firstUnknown env (varsOfFields fs) <;> simp
theorem evalList_eq (env : Env) : (xs : List Lit) → (acc : List Resp) → IntsFitList xs → evalList env xs acc =
    match firstUnknown env (varsOfList xs) with
    | some v => .error (unknownVariable v)
    | none => .ok (acc ++ writtenList env.variables.find xs)
  | [], acc, _ => by simp [evalList, varsOfList, firstUnknown, writtenList]
  | x :: xs, acc, h => by
    simp only [IntsFitList] at h
    rw [evalList, evalLit_eq env x h.1, varsOfList, firstUnknown_append]
    cases hx : firstUnknown env (varsOf x) with
    | some v => simp
    | none =>
      simp only [Option.none_or]
      rw [evalList_eq env xs _ h.2]
      cases firstUnknown env (varsOfList xs) <;> simp [writtenList]
theorem evalArgs_eq (env : Env) : (xs : List (Str × Lit)) → (acc : Members) → IntsFitFields xs → evalArgs env xs acc =
    match firstUnknown env (varsOfFields xs) with
    | some v => .error (unknownVariable v)
    | none => .ok (Verif.Value.Spec.addAll acc (writtenFields env.variables.find xs))
  | [], acc, _ => by simp [evalArgs, varsOfFields, firstUnknown, writtenFields, Verif.Value.Spec.addAll]
  | (n, x) :: xs, acc, h => by
    simp only [IntsFitFields] at h
    rw [evalArgs, evalLit_eq env x h.1, varsOfFields, firstUnknown_append]
    cases hx : firstUnknown env (varsOf x) with
    | some v => simp
    | none =>
      simp only [Option.none_or]
      rw [evalArgs_eq env xs _ h.2]
      cases firstUnknown env (varsOfFields xs) <;> simp [writtenFields, Verif.Value.Spec.addAll, emplace_eq_add]
end

/-- C16: a literal whose variables all have values evaluates to the value written; otherwise the first variable
without a value is reported with its location, and nothing else is. -/
theorem C16_literal_value (env : Env) (l : Lit) (h : IntsFit l) :
    (∀ v, evalLit env l = .ok v ↔ (∀ x ∈ varsOf l, (env.variables.find x.2).isSome) ∧ v = written env.variables.find l) ∧
    (∀ e, evalLit env l = .error e ↔ ∃ before pos name after, varsOf l = before ++ (pos, name) :: after ∧
      (∀ x ∈ before, (env.variables.find x.2).isSome) ∧ env.variables.find name = none ∧
      e = .schema [{ message := str "Unknown variable name: " ++ name, location := pos }]) := by
  rw [evalLit_eq env l h]
  cases hf : firstUnknown env (varsOf l) with
  | none =>
    have hall : ∀ x ∈ varsOf l, (env.variables.find x.2).isSome := by
      intro x hx
      have := List.find?_eq_none.1 hf x hx
      simpa [Option.isSome_iff_ne_none] using this
    constructor
    · intro v
      simp only [Except.ok.injEq]
      exact ⟨fun h => ⟨hall, h.symm⟩, fun h => h.2.symm⟩
    · intro e
      simp only [reduceCtorEq, false_iff, not_exists, not_and]
      intro before pos name after hv _ hn
      have := hall (pos, name) (by simp [hv])
      simp [hn] at this
  | some v =>
    obtain ⟨hv, as, bs, hl, has⟩ := List.find?_eq_some_iff_append.1 hf
    obtain ⟨pos, name⟩ := v
    have hn : env.variables.find name = none := by simpa using hv
    constructor
    · intro w
      simp only [reduceCtorEq, false_iff, not_and]
      intro hall
      have := hall (pos, name) (by simp [hl])
      simp [hn] at this
    · intro e
      simp only [Except.error.injEq]
      constructor
      · rintro rfl
        refine ⟨as, pos, name, bs, hl, ?_, hn, rfl⟩
        intro x hx
        have := has x hx
        simpa [Option.isSome_iff_ne_none] using this
      · rintro ⟨before, pos', name', after, hl', hb, hn', rfl⟩
        have h1 : (varsOf l).find? (fun v => (env.variables.find v.2).isNone) = some (pos', name') := by
          rw [List.find?_eq_some_iff_append]
          refine ⟨by simp [hn'], before, after, hl', ?_⟩
          intro x hx
          have := hb x hx
          simpa [Option.isSome_iff_ne_none] using this
        have h2 : firstUnknown env (varsOf l) = some (pos', name') := h1
        rw [hf] at h2
        cases h2
        rfl

example : evalLit ⟨[(str "v", .list [.int 1])], id⟩ (.object [(str "a", .list [.variable ⟨1, 2⟩ (str "v"), .null])])
    = .ok (.map [(str "a", .list [.list [.int 1], .null])]) := rfl
example : IntsFit (.object [(str "a", .list [.variable ⟨1, 2⟩ (str "v"), .int (-7)])]) := by
  simp [IntsFit, IntsFitFields, IntsFitList]

/-- C16: the arguments of a field are the values written, the first of each name. -/
theorem C16_arguments (env : Env) (args : Args) (h : IntsFitFields args)
    (hv : ∀ x ∈ varsOfFields args, (env.variables.find x.2).isSome) :
    evalOptArgs env (some args) = .ok (Verif.Value.Spec.addAll [] (writtenFields env.variables.find args)) := by
  rw [evalOptArgs, evalArgs_eq env args [] h]
  have : firstUnknown env (varsOfFields args) = none := by
    rw [firstUnknown, List.find?_eq_none]
    intro x hx
    have := hv x hx
    simpa [Option.isSome_iff_ne_none] using this
  rw [this]

/-! ## C15 -/

/-- A condition `@name(if: b)`: not there, well formed with its value, or anything else. -/
inductive Cond where
  | absent
  | is (b : Bool)
  | malformed
deriving DecidableEq

/-- The condition given by the arguments of a directive. -/
def condOfArgs (args : Members) : Cond :=
  match args with
  | [(name, .boolean b)] => if name = str "if" then .is b else .malformed
  | _ => .malformed

/-- The condition of the directive with this name. -/
def condOf (directives : Members) (name : Str) : Cond :=
  match directives.find name with
  | none => .absent
  | some (.map args) => condOfArgs args
  | some _ => .malformed

/-- The rule of the GraphQL specification: execute iff `@skip` is not true and `@include` is not false. -/
def specExecutes (skip incl : Cond) : Bool := decide (skip ≠ .is true) && decide (incl ≠ .is false)

theorem skipArguments_seen (d : Str) (args : Members) (t f : Bool) (h : (t || f) = true) (hne : args ≠ []) :
    ∃ m, skipArguments d args (t, f) = .error (.message m) := by
  cases args with
  | nil => exact absurd rfl hne
  | cons a rest =>
    obtain ⟨n, v⟩ := a
    cases v <;> simp only [skipArguments] <;> try exact ⟨_, rfl⟩
    rw [if_pos (by simp [Bool.or_eq_true] at h; simp [h])]
    exact ⟨_, rfl⟩

theorem skipEntry_eq (directives : Members) (skip : Bool) (name : Str) :
    match condOf directives name with
    | .absent => skipEntry directives skip name = .ok none
    | .is b => skipEntry directives skip name = .ok (some (if b then skip else !skip))
    | .malformed => ∃ m, skipEntry directives skip name = .error (.message m) := by
  unfold condOf skipEntry
  cases directives.find name with
  | none => rfl
  | some v =>
    cases v with
    | map args =>
      simp only
      match args with
      | [] => exact ⟨_, rfl⟩
      | [(n, .boolean b)] =>
        simp only [condOfArgs]
        by_cases hn : n = str "if"
        · subst hn; cases b <;> simp [skipArguments]
        · rw [if_neg hn, skipArguments, if_pos (by simp [hn])]; exact ⟨_, rfl⟩
      | (n, .boolean b) :: a :: rest =>
        simp only [condOfArgs]
        rw [skipArguments]
        by_cases hn : n = str "if"
        · rw [if_neg (by simp [hn])]
          obtain ⟨m, hm⟩ := skipArguments_seen name (a :: rest) b (!b) (by cases b <;> rfl) (by simp)
          exact ⟨m, by rw [hm]⟩
        · rw [if_pos (by simp [hn])]; exact ⟨_, rfl⟩
      | (n, .map _) :: rest => simp only [condOfArgs, skipArguments]; exact ⟨_, rfl⟩
      | (n, .list _) :: rest => simp only [condOfArgs, skipArguments]; exact ⟨_, rfl⟩
      | (n, .string ..) :: rest => simp only [condOfArgs, skipArguments]; exact ⟨_, rfl⟩
      | (n, .null) :: rest => simp only [condOfArgs, skipArguments]; exact ⟨_, rfl⟩
      | (n, .int _) :: rest => simp only [condOfArgs, skipArguments]; exact ⟨_, rfl⟩
      | (n, .float _) :: rest => simp only [condOfArgs, skipArguments]; exact ⟨_, rfl⟩
      | (n, .enumValue _) :: rest => simp only [condOfArgs, skipArguments]; exact ⟨_, rfl⟩
      | (n, .scalar _) :: rest => simp only [condOfArgs, skipArguments]; exact ⟨_, rfl⟩
    | _ => exact ⟨_, rfl⟩

/-- C15: the complete decision. A selection is executed iff `@skip` is absent or false and `@include` is absent or
true, except that `@include` is not looked at when `@skip` is present; a condition which is looked at and is not of
the form `(if: <Boolean>)` is an error, never a decision. -/
theorem C15_decision (directives : Members) :
    match condOf directives (str "skip"), condOf directives (str "include") with
    | .malformed, _ => ∃ m, shouldSkip directives = .error (.message m)
    | .is b, _ => shouldSkip directives = .ok b
    | .absent, .malformed => ∃ m, shouldSkip directives = .error (.message m)
    | .absent, incl => shouldSkip directives = .ok !(specExecutes .absent incl) := by
  have h1 := skipEntry_eq directives true (str "skip")
  have h2 := skipEntry_eq directives false (str "include")
  unfold shouldSkip
  cases hs : condOf directives (str "skip") with
  | malformed => rw [hs] at h1; obtain ⟨m, hm⟩ := h1; exact ⟨m, by rw [hm]⟩
  | is b => rw [hs] at h1; simp only at h1; rw [h1]; cases b <;> rfl
  | absent =>
    rw [hs] at h1; simp only at h1; rw [h1]
    cases hi : condOf directives (str "include") with
    | malformed => rw [hi] at h2; obtain ⟨m, hm⟩ := h2; exact ⟨m, by simp only [hm]⟩
    | is b => rw [hi] at h2; simp only at h2; simp only [h2]; cases b <;> rfl
    | absent => rw [hi] at h2; simp only at h2; simp only [h2]; rfl

/-- C15: whenever the decision is well defined and not both directives are used, it is the one of the specification. -/
theorem C15_skip_include (directives : Members) (hs : condOf directives (str "skip") ≠ .malformed)
    (hi : condOf directives (str "include") ≠ .malformed)
    (h : condOf directives (str "skip") = .absent ∨ condOf directives (str "include") ≠ .is false) :
    shouldSkip directives =
      .ok !(specExecutes (condOf directives (str "skip")) (condOf directives (str "include"))) := by
  have hd := C15_decision directives
  cases h1 : condOf directives (str "skip") with
  | malformed => exact absurd h1 hs
  | is b =>
    rw [h1] at hd
    simp only at hd
    rw [hd]
    rcases h with h | h
    · rw [h1] at h; cases h
    · simp only [specExecutes, h, ne_eq, not_false_eq_true, decide_true, Bool.and_true]
      cases b <;> simp
  | absent =>
    rw [h1] at hd
    cases h2 : condOf directives (str "include") with
    | malformed => exact absurd h2 hi
    | is b => rw [h2] at hd; exact hd
    | absent => rw [h2] at hd; exact hd

/-- The exception is real: `@skip(if: false) @include(if: false)` is executed, although the specification says that it
must not be. -/
theorem C15_include_ignored :
    ∃ directives : Members, condOf directives (str "skip") = .is false ∧ condOf directives (str "include") = .is false ∧
      shouldSkip directives = .ok false ∧ specExecutes (.is false) (.is false) = false :=
  ⟨[(str "skip", .map [(str "if", .boolean false)]), (str "include", .map [(str "if", .boolean false)])],
    rfl, rfl, rfl, rfl⟩

/-- From the document: the directives written on a node, each once, are the conditions. -/
theorem C15_written (env : Env) (l : Lit) (b : Bool) (h : evalLit env l = .ok (.boolean b)) (name : Str)
    (hn : name = str "skip" ∨ name = str "include") :
    ∃ ms, evalDirectives env (some [{ name := name, arguments := some [(str "if", l)] }]) = .ok ms ∧
      condOf ms name = .is b ∧ shouldSkip ms = .ok (if name = str "skip" then b else !b) := by
  refine ⟨[(name, .map [(str "if", .boolean b)])], ?_, ?_, ?_⟩
  · have : name.isEmpty = false := by rcases hn with rfl | rfl <;> rfl
    simp [evalDirectives, visitDirectives, this, evalOptArgs, evalArgs, h, Members.emplace]
  · rcases hn with rfl | rfl <;> rfl
  · rcases hn with rfl | rfl <;> cases b <;> rfl

end Verif.Exec
