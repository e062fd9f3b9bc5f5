import Verif.Exec.Fields

/-!
# C46: directives of enclosing fragments
-/
namespace Verif.Exec
open Verif.Value Verif.Resp Verif.Errors Verif.Ast

variable {E O : Type}

/-! ## Specification -/

/-- A fragment around selections. -/
inductive Wrapper where
  | spread (fragment : FragInfo) (directives : Option (List Directive))
  | inline (typeCondition : Option Str) (directives : Option (List Directive))

/-- The selection which consists of the fragment with the given selections. -/
def Wrapper.around : Wrapper → List XSelection → XSelection
  | .spread fragment directives, sub => .spread fragment directives sub
  | .inline typeCondition directives, sub => .inline typeCondition directives sub

/-- Selections inside of fragments; the first one is the outermost. -/
def nest : List Wrapper → List XSelection → List XSelection
  | [], sub => sub
  | w :: ws, sub => [w.around (nest ws sub)]

/-- The directives written at the fragment. -/
def Wrapper.directives : Wrapper → Option (List Directive)
  | .spread _ ds => ds
  | .inline _ ds => ds

/-- The fragment applies to the object and is not skipped; its directives have the values `ms`. -/
def Wrapper.Applies (I : Impl E O) (env : Env) (o : O) (w : Wrapper) (ms : Members) : Prop :=
  (match w with
    | .spread fragment _ => fragment.type ∈ I.typeNames o
    | .inline t _ => ∀ name, t = some name → name ∈ I.typeNames o) ∧
  evalDirectives env w.directives = .ok ms ∧ shouldSkip ms = .ok false

/-- The directives of the definition of a fragment, of a spread, of an inline fragment. -/
def Wrapper.definition : Wrapper × Members → Members
  | (.spread fragment _, _) => fragment.directives
  | _ => []
def Wrapper.spreadDirectives : Wrapper × Members → Members
  | (.spread _ _, ms) => ms
  | _ => []
def Wrapper.inlineDirectives : Wrapper × Members → Members
  | (.inline _ _, ms) => ms
  | _ => []

/-- The arguments of the directive `name` at the innermost fragment which has it, or else those from outside. -/
def innermost (of : Wrapper × Members → Members) (ws : List (Wrapper × Members)) (outside : Members) (name : Str) :
    Option Resp :=
  (ws.reverse.findSome? fun w => (of w).find name).or (outside.find name)

/-! ## Proof -/

theorem find_emplace' (ms : Members) (n : Str) (v : Resp) (name : Str) :
    (ms.emplace n v).find name = (ms.find name).or (if n = name then some v else none) := by
  unfold Members.emplace Members.find
  by_cases h : ms.any (fun e => e.1 == n) = true
  · rw [if_pos h]
    by_cases hn : n = name
    · subst hn
      obtain ⟨x, hx, hxn⟩ := List.any_eq_true.mp h
      cases hf : ms.find? (fun e => e.1 == n) with
      | none => exact absurd hxn (List.find?_eq_none.mp hf x hx)
      | some y => simp
    · simp [hn]
  · rw [if_neg h, List.find?_append]
    cases hf : ms.find? (fun e => e.1 == name) with
    | some y => simp
    | none =>
      by_cases hn : n = name
      · simp [hn]
      · simp [hn]

theorem find_mergeOuter (inner outer : Members) (name : Str) :
    (mergeOuter inner outer).find name = (inner.find name).or (outer.find name) := by
  unfold mergeOuter
  induction outer generalizing inner with
  | nil => simp [Members.find]
  | cons e outer ih =>
    rw [List.foldl_cons, ih, find_emplace', Option.or_assoc]
    congr 1
    unfold Members.find
    by_cases h : e.1 = name
    · simp [h]
    · simp [h]

theorem innermost_cons (of : Wrapper × Members → Members) (w : Wrapper × Members) (ws : List (Wrapper × Members))
    (outside : Members) (name : Str) :
    innermost of (w :: ws) outside name =
      (ws.reverse.findSome? fun w => (of w).find name).or (((of w).find name).or (outside.find name)) := by
  unfold innermost
  rw [List.reverse_cons, List.findSome?_append, Option.or_assoc]
  simp

/-- C46: inside of any nesting of fragments which apply, the accessors get the directives of the innermost definition,
spread or inline fragment which has a directive of that name. -/
theorem C46_innermost_directives (I : Impl E O) (env : Env) (o : O) (ws : List (Wrapper × Members))
    (h : ∀ w ∈ ws, w.1.Applies I env o w.2) (sub : List XSelection) (params : SetParams) (st : St E) :
    ∃ fd : FragDirs,
      visitAll I env (nest (ws.map (·.1)) sub) o params st =
        visitAll I env sub o { params with fragmentDirectives := fd } st ∧
      ∀ name,
        fd.definition.find name = innermost Wrapper.definition ws params.fragmentDirectives.definition name ∧
        fd.spread.find name = innermost Wrapper.spreadDirectives ws params.fragmentDirectives.spread name ∧
        fd.inline.find name = innermost Wrapper.inlineDirectives ws params.fragmentDirectives.inline name := by
  induction ws generalizing params with
  | nil => exact ⟨params.fragmentDirectives, rfl, fun name => by simp [innermost]⟩
  | cons w ws ih =>
    obtain ⟨w, ms⟩ := w
    have hw := h (w, ms) (by simp)
    have hws : ∀ w ∈ ws, w.1.Applies I env o w.2 := fun w hw => h w (List.mem_cons_of_mem _ hw)
    obtain ⟨ht, hd, hs⟩ := hw
    cases w with
    | spread fragment ds =>
      obtain ⟨fd, heq, hfd⟩ := ih hws { params with fragmentDirectives := {
        definition := mergeOuter fragment.directives params.fragmentDirectives.definition
        spread := mergeOuter ms params.fragmentDirectives.spread
        inline := params.fragmentDirectives.inline } }
      refine ⟨fd, ?_, ?_⟩
      · simp only [List.map_cons, nest, Wrapper.around, visitAll, visit]
        have hm : matchesType I o fragment.type = true := by simpa [matchesType] using ht
        simp only [Wrapper.directives] at hd
        simp only [hm, Bool.not_true, Bool.false_eq_true, if_false, hd, hs]
        rw [show (Run.lift (E := E) (Except.ok ms : Except Exn Members)) = .pure ms from rfl, Run.pure_bind, hs,
          show (Run.lift (E := E) (Except.ok false : Except Exn Bool)) = .pure false from rfl, Run.pure_bind]
        simp only [Bool.false_eq_true, if_false]
        rw [show (fun st => Run.pure (E := E) st) = (Run.pure : St E → _) from rfl, Run.bind_pure]
        exact heq
      · intro name
        have := hfd name
        simp only [innermost_cons, Wrapper.definition, Wrapper.spreadDirectives, Wrapper.inlineDirectives]
        simp only [innermost, find_mergeOuter] at this
        refine ⟨this.1, this.2.1, ?_⟩
        rw [this.2.2]; rfl
    | inline t ds =>
      obtain ⟨fd, heq, hfd⟩ := ih hws { params with fragmentDirectives := {
        definition := params.fragmentDirectives.definition
        spread := params.fragmentDirectives.spread
        inline := mergeOuter ms params.fragmentDirectives.inline } }
      refine ⟨fd, ?_, ?_⟩
      · simp only [List.map_cons, nest, Wrapper.around, visitAll, visit]
        have hm : t.all (matchesType I o) = true := by
          cases t with
          | none => rfl
          | some n => simpa [matchesType] using ht n rfl
        simp only [Wrapper.directives] at hd
        simp only [hd, hs, hm]
        rw [show (Run.lift (E := E) (Except.ok ms : Except Exn Members)) = .pure ms from rfl, Run.pure_bind, hs,
          show (Run.lift (E := E) (Except.ok false : Except Exn Bool)) = .pure false from rfl, Run.pure_bind]
        simp only [Bool.false_eq_true, if_false, if_true]
        rw [show (fun st => Run.pure (E := E) st) = (Run.pure : St E → _) from rfl, Run.bind_pure]
        exact heq
      · intro name
        have := hfd name
        simp only [innermost_cons, Wrapper.definition, Wrapper.spreadDirectives, Wrapper.inlineDirectives]
        simp only [innermost, find_mergeOuter] at this
        refine ⟨?_, ?_, this.2.2⟩
        · rw [this.1]; rfl
        · rw [this.2.1]; rfl

/-- C46: the fields of a nested object do not get the directives of the fragments around the object's own field: if the
object's begin and end callbacks ignore these, nothing depends on them. -/
theorem C46_not_inherited (I : Impl E O) (env : Env) (o : O) (params : SetParams) (d : FragDirs) (xs : List XSelection)
    (hb : I.beginSet o { params with fragmentDirectives := d } = I.beginSet o params)
    (he : I.endSet o { params with fragmentDirectives := d } = I.endSet o params) :
    execute I env o { params with fragmentDirectives := d } xs = execute I env o params xs := by
  unfold execute resolveObject
  rw [hb, he]

/-! ## An example: `... on T @d { ...F @e }` around a field -/

namespace DirectiveDemo
/-- An object of type `T`. -/
def I : Impl Unit Unit where
  typeNames _ := [str "T"]
  resolver _ _ := none
  beginSet _ _ := .pure ()
  endSet _ _ := .pure ()
def env : Env := ⟨[], fun _ => 0⟩
/-- `... on T @d @e`, `...F @e` where `fragment F on T @x`. -/
def ws : List (Wrapper × Members) := [
  (.spread ⟨str "T", [(str "x", .null)]⟩ (some [⟨str "d", some [(str "a", .int 1)]⟩, ⟨str "e", none⟩]),
    [(str "d", .map [(str "a", .int 1)]), (str "e", .map [])]),
  (.spread ⟨str "T", [(str "x", .int 2)]⟩ (some [⟨str "d", some [(str "a", .int 2)]⟩]),
    [(str "d", .map [(str "a", .int 2)])])]

example : ∀ w ∈ ws, w.1.Applies I env () w.2 := by
  intro w hw
  simp only [ws, List.mem_cons, List.mem_nil_iff, or_false] at hw
  rcases hw with rfl | rfl
  · exact ⟨by simp [I], rfl, rfl⟩
  · exact ⟨by simp [I], rfl, rfl⟩
example : innermost Wrapper.spreadDirectives ws [] (str "d") = some (.map [(str "a", .int 2)]) := rfl
example : innermost Wrapper.spreadDirectives ws [] (str "e") = some (.map []) := rfl
example : innermost Wrapper.definition ws [] (str "x") = some (.int 2) := rfl
end DirectiveDemo

end Verif.Exec
