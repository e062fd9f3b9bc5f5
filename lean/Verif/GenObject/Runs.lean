import Verif.GenObject.Tree
import Verif.GenObject.Read
import Verif.GenCode.RunAll

/-!
# Running the resolvers
-/
namespace Verif.GenObject
open Verif.Value Verif.Resp Verif.Errors Verif.Text Verif.GenCode Verif.Gen.Service
open Verif.Modifiers (Mod Arg)
open Verif.Gen (InputField ObjectType OutputField)
open Verif.Gen.Client (Data)
open Verif.GenText (cpp)
open Verif.Cpp (Path path word)
open Verif.Cpp.Code (Expr Stmt Entry Constructor Method)

variable {W : World}

/-! ## The first part -/

/-- A statement which runs as in `Verif.GenCode.Run`, and does not return. -/
def Plain (W : World) (s : Stmt) : Prop :=
  ∀ E, step W s E = ([], (exec W.library s E).map fun r => (r.1.isSome, r.2)) ∧ ∀ v E', exec W.library s E ≠ .ok (some v, E')

theorem plain_auto (b : Bool) (x : Str) {e : Expr} (h : ∀ E, value W e E = ([], eval W.library e E)) : Plain W (.auto b x e) := by
  intro E
  have hr : ∀ v E', exec W.library (.auto b x e) E ≠ .ok (some v, E') := by
    intro v E'
    simp only [exec]
    cases E x with
    | some _ => simp
    | none => cases eval W.library e E <;> simp [Out.map, Out.bind]
  refine ⟨?_, hr⟩
  cases b with
  | true => rfl
  | false =>
    simp only [step, exec, h]
    cases E x with
    | some _ => simp [Out.map, Out.bind]
    | none => cases eval W.library e E <;> simp [Out.map, Out.bind]

theorem steps_plain (ss rest : List Stmt) (h : ∀ s ∈ ss, Plain W s) (E : Scope) :
    steps W (ss ++ rest) E =
      match execs W.library ss E with
      | .ok (_, E') => steps W rest E'
      | .throws e => ([], .throws e)
      | .depth => ([], .depth)
      | .stuck => ([], .stuck) := by
  induction ss generalizing E with
  | nil => simp [execs]
  | cons s ss ih =>
    have hs := h s (by simp)
    simp only [List.cons_append, steps, execs, (hs E).1]
    cases hx : exec W.library s E with
    | ok r =>
      obtain ⟨v, E'⟩ := r
      cases v with
      | some v => exact absurd hx ((hs E).2 v E')
      | none => simpa [Out.map, Out.bind] using ih (fun s hs => h s (by simp [hs])) E'
    | throws e => rfl
    | depth => rfl
    | stuck => rfl

theorem arguments_plain (number : Double → Expr) (ns : Path) (fs : List InputField) :
    ∀ s ∈ argumentsS number ns fs, Plain W s := by
  intro s hs
  simp only [argumentsS, List.mem_append, List.mem_flatMap] at hs
  rcases hs with hs | ⟨f, -, hs⟩
  · unfold defaultsS at hs
    split at hs
    · cases hs
    · simp only [List.mem_singleton] at hs
      subst hs
      exact plain_auto _ _ fun E => rfl
  · unfold declarationS at hs
    split at hs
    · simp only [List.mem_singleton] at hs
      subst hs
      exact plain_auto _ _ fun E => rfl
    · simp only [List.mem_cons, List.not_mem_nil, or_false] at hs
      rcases hs with rfl | rfl
      · exact plain_auto _ _ fun E => rfl
      · exact plain_auto _ _ fun E => rfl

/-! ## The last part -/

theorem moved_moveE (x : Str) : moved? (moveE x) = some x := by simp [moved?, moveE, word]

theorem args_ok (as : List (Arg Data)) : args? (as.map Val.arg) = some as := by
  unfold args?
  induction as with
  | nil => rfl
  | cons a as ih => simp [ih]

/-- The events of a resolver of which the arguments are there. -/
def events (W : World) (f : OutputField) (as : List (Arg Data)) : List Event × Out Unit :=
  match W.accessor (f.accessor ++ capital f) as with
  | some e => ([.lock, .call (f.accessor ++ capital f) as], .throws e)
  | none => ([.lock, .call (f.accessor ++ capital f) as, .unlock, .convert (resultPath f) f.modifiers .result], .ok ())

theorem accessor_value {f : OutputField} {as : List (Arg Data)} {E : Scope} (hp : isParams E (str "params") = true)
    (hd : E (str "directives") = some .directives) (hn : (f.arguments.map argVar).Nodup) (hne : str "directives" ∉ f.arguments.map argVar)
    (ha : List.Forall₂ (fun x a => E x = some (.arg a)) (f.arguments.map argVar) as) :
    ∃ E', value W (accessorE f) E = ([.call (f.accessor ++ capital f) as],
        match W.accessor (f.accessor ++ capital f) as with
        | none => .ok (.result, E')
        | some e => .throws e) ∧
      ∀ y, y ≠ str "directives" → y ∉ f.arguments.map argVar → E' y = E y := by
  obtain ⟨E', h1, h2⟩ := eval_moves (L := W.library) (f.arguments.map argVar) as (E := E.set (str "directives") .moved) hn (by
    rw [List.forall₂_iff_get] at ha ⊢
    refine ⟨ha.1, fun i hi hj => ?_⟩
    have : (f.arguments.map argVar).get ⟨i, hi⟩ ≠ str "directives" := fun e => hne (e ▸ List.get_mem _ ⟨i, hi⟩)
    rw [set_other _ _ this]
    exact ha.2 i hi hj)
  refine ⟨E', ?_, fun y y1 y2 => by rw [h2 y y2, set_other _ _ y1]⟩
  simp only [accessorE, value, moved_moveE, hp, hd, h1, args_ok, word]
  simp
  cases W.accessor (f.accessor ++ capital f) as <;> rfl

theorem steps_last {f : OutputField} {as : List (Arg Data)} {args : Resp} {E : Scope} (hp : E (str "params") = some (.params args))
    (h1 : E (str "resolverLock") = none) (h2 : E (str "directives") = none) (h3 : E (str "result") = none)
    (hn : (f.arguments.map argVar).Nodup) (ha : List.Forall₂ (fun x a => E x = some (.arg a)) (f.arguments.map argVar) as) :
    steps W (lastS f) E = events W f as := by
  have hne : ∀ s : Str, str "a" ≠ s.take 1 → s ∉ f.arguments.map argVar := by
    intro s hs hm
    obtain ⟨a, -, rfl⟩ := List.mem_map.1 hm
    exact hs rfl
  let E1 := E.set (str "resolverLock") (.lock true)
  let E2 := E1.set (str "directives") .directives
  have hm : ∀ {x : Str}, x ∈ f.arguments.map argVar → E2 x = E x := by
    intro x hx
    have x1 : x ≠ str "directives" := fun e => hne _ (by decide) (e ▸ hx)
    have x2 : x ≠ str "resolverLock" := fun e => hne _ (by decide) (e ▸ hx)
    simp only [E2, E1]
    rw [set_other _ _ x1, set_other _ _ x2]
  have p1 : E1 (str "params") = some (.params args) := by simp only [E1]; rw [set_other _ _ (by decide), hp]
  have p2 : E2 (str "params") = some (.params args) := by simp only [E2]; rw [set_other _ _ (by decide), p1]
  have d1 : E1 (str "directives") = none := by simp only [E1]; rw [set_other _ _ (by decide), h2]
  have r2 : E2 (str "result") = none := by simp only [E2, E1]; rw [set_other _ _ (by decide), set_other _ _ (by decide), h3]
  have s1 : step W (.varWith (path "std" ["unique_lock"]) (str "resolverLock") (var "_resolverMutex")) E = ([.lock], .ok (false, E1)) := by
    simp [step, var, h1, E1]
  have s2 : step W (.auto false (str "directives") (.call (path "std" ["move"]) [.member (str "params") (str "fieldDirectives")])) E1 =
      ([], .ok (false, E2)) := by
    simp [step, d1, value, isParams, p1, E2, Out.map, Out.bind]
  obtain ⟨E3, hv, hf⟩ := accessor_value (W := W) (f := f) (as := as) (E := E2) (by simp [isParams, p2])
    (by simp only [E2]; exact set_same _ _ _) hn (hne _ (by decide)) (by
      rw [List.forall₂_iff_get] at ha ⊢
      exact ⟨ha.1, fun i hi hj => (hm (List.get_mem _ ⟨i, hi⟩)).trans (ha.2 i hi hj)⟩)
  unfold events
  cases hw : W.accessor (f.accessor ++ capital f) as with
  | some e =>
    simp only [hw] at hv
    have s3 : step W (.auto false (str "result") (accessorE f)) E2 = ([.call (f.accessor ++ capital f) as], .throws e) := by
      simp [step, r2, hv, Out.map, Out.bind]
    simp [lastS, steps, s1, s2, s3]
  | none =>
    simp only [hw] at hv
    let E4 := E3.set (str "result") .result
    have s3 : step W (.auto false (str "result") (accessorE f)) E2 = ([.call (f.accessor ++ capital f) as], .ok (false, E4)) := by
      simp [step, r2, hv, Out.map, Out.bind, E4]
    have l4 : E4 (str "resolverLock") = some (.lock true) := by
      simp only [E4]
      rw [set_other _ _ (by decide), hf _ (by decide) (hne _ (by decide))]
      simp only [E2, E1]
      rw [set_other _ _ (by decide), set_same]
    let E5 := E4.set (str "resolverLock") (.lock false)
    have s4 : step W (.expr (.method (str "resolverLock") (str "unlock") none [])) E4 = ([.unlock], .ok (false, E5)) := by
      simp [step, l4, E5]
    have r5 : E5 (str "result") = some .result := by
      simp only [E5, E4]; rw [set_other _ _ (by decide), set_same]
    have p5 : E5 (str "params") = some (.params args) := by
      simp only [E5, E4]
      rw [set_other _ _ (by decide), set_other _ _ (by decide), hf _ (by decide) (hne _ (by decide)), p2]
    have hg : given E5 (moveE (str "result")) = some .result := by
      have : given E5 (moveE (str "result")) = (moved? (moveE (str "result"))).bind fun x =>
        match E5 x with
        | some .result => some .result
        | _ => none := rfl
      rw [this, moved_moveE]
      simp [r5]
    have s5 : step W (.ret (convertE (resultPath f) (f.modifiers.map modPath) (moveE (str "result")))) E5 =
        ([.convert (resultPath f) f.modifiers .result], .ok (true, E5)) := by
      simp only [step, convertE, hg, moved_moveE, modifiers_ok]
      simp [isParams, p5]
    simp [lastS, steps, s1, s2, s3, s4, s5]

/-! ## Resolvers -/

theorem run_resolver {print : Double → Str} {ns : Path} {t : ObjectType} {f : OutputField} (h : FieldsOk print W.library.read f.arguments)
    {c : InputField → Resp → Res Data} (hc : ∀ a ∈ f.arguments, ∀ v, W.library.convert (accessPath ns a) v = Out.of (c a v)) (args : Resp) :
    steps W (resolverM (numberE print) ns t f).body (Scope.empty.set (str "params") (.params args)) =
      match getArguments c (defaults f.arguments) f.arguments args with
      | .ok as => events W f (as.map (·.2))
      | .error e => ([], .throws e)
      | .depth => ([], .depth) := by
  have hr := arguments_run (print := print) (L := W.library) (ns := ns) h hc args
  simp only [resolverM]
  rw [steps_plain _ _ (arguments_plain _ _ _)]
  cases hg : getArguments c (defaults f.arguments) f.arguments args with
  | error e => rw [hg] at hr; rw [hr]
  | depth => rw [hg] at hr; rw [hr]
  | ok as =>
    rw [hg] at hr
    obtain ⟨E', h1, h2, h3, h4⟩ := hr
    rw [h1]
    dsimp only
    have free : ∀ y : Str, y ≠ str "params" → y ≠ str "defaultArguments" → str "a" ≠ y.take 1 → str "p" ≠ y.take 1 → E' y = none := by
      intro y y1 y2 y3 y4
      exact h4 y y1 y2 fun f _ => ⟨fun e => y3 (by rw [e]; rfl), fun e => y4 (by rw [e]; rfl)⟩
    refine steps_last h3 (free _ (by decide) (by decide) (by decide) (by decide)) (free _ (by decide) (by decide) (by decide) (by decide))
      (free _ (by decide) (by decide) (by decide) (by decide)) ?_ ?_
    · have : f.arguments.map argVar = (f.arguments.map GenCode.capital).map (str "arg" ++ ·) := by rw [List.map_map]; rfl
      rw [this]
      exact h.distinct.map fun a b e => List.append_cancel_left e
    · rw [List.forall₂_map_left_iff, List.forall₂_map_right_iff]
      exact h2.imp fun _ _ hh => hh.2

theorem run_typename {t : ObjectType} (h : IsName t.type) (args : Resp) :
    steps W (typenameM t).body (Scope.empty.set (str "params") (.params args)) =
      ([.convert (path "response" ["StringType"]) [] (.text t.type)], .ok ()) := by
  have hz : cString t.type = t.type := name_cString h
  simp [typenameM, steps, step, convertE, given, moved_moveE, hz, isParams, set_same]

end Verif.GenObject
