import Verif.GenCode.Runs
import Verif.GenCode.ReadAll
import Mathlib.Data.List.Forall2

/-!
# Running the code of arguments and input objects
-/
namespace Verif.GenCode
open Verif.Value Verif.Resp Verif.Errors Verif.Text Verif.Gen.Service
open Verif.Modifiers (Mod Arg)
open Verif.Gen (InputField InputType)
open Verif.Gen.Client (Data)
open Verif.GenText (cpp)
open Verif.Cpp (Path path word)
open Verif.Cpp.Code (Expr Stmt Function)

/-! ## The library -/

theorem of_bind {α β : Type} (r : Res α) (f : α → Res β) : Out.of (r.bind f) = (Out.of r).bind fun a => Out.of (f a) := by
  cases r <;> rfl

theorem of_map {α β : Type} (r : Res α) (f : α → β) : Out.of (r.map f) = (Out.of r).map f := by
  cases r <;> rfl

theorem outMap_of {α β : Type} {g : α → Out β} {f : α → Res β} (h : ∀ x, g x = Out.of (f x)) (xs : List α) :
    outMap g xs = Out.of (mapRes f xs) := by
  induction xs with
  | nil => rfl
  | cons x xs ih => simp only [outMap, mapRes, h, ih, of_bind]; rfl

theorem requireOut_of {g : Resp → Out Data} {c : Resp → Res Data} (h : ∀ v, g v = Out.of (c v)) (ms : List Mod) (n : Str)
    (a : Resp) : requireOut g ms n a = Out.of (require c ms n a) := by
  induction ms generalizing a with
  | nil =>
    simp only [requireOut, require]
    cases Res.of (at_ a n) with
    | ok v =>
      simp only [Out.of, Out.bind, Res.bind, h]
      cases c v <;> rfl
    | error e => rfl
    | depth => rfl
  | cons m ms ih =>
    cases m with
    | nullable =>
      simp only [requireOut, require, of_bind, ih]
      congr 1
      funext v
      match v with
      | none => rfl
      | some .null => rfl
      | some (.map _) => exact (of_map _ _).symm
      | some (.list _) => exact (of_map _ _).symm
      | some (.string _ _) => exact (of_map _ _).symm
      | some (.boolean _) => exact (of_map _ _).symm
      | some (.int _) => exact (of_map _ _).symm
      | some (.float _) => exact (of_map _ _).symm
      | some (.enumValue _) => exact (of_map _ _).symm
      | some (.scalar _) => exact (of_map _ _).symm
    | list =>
      simp only [requireOut, require, of_bind, of_map]
      congr 1
      funext v
      congr 1
      funext es
      rw [outMap_of fun element => ih _]

/-! ## Defaults -/

theorem does_values (print : Double → Str) (L : Library) (fs : List InputField) (hn : ∀ f ∈ fs, IsName f.name)
    (hv : ∀ f ∈ fs, DefaultOk print L.read f.defaultValue) {acc : Members}
    (hd : (acc.map (·.1) ++ fs.map (·.name)).Nodup) {E : Scope} {x : Val} (hm : E (str "values") = some (.value (.map acc)))
    (hx : E (str "entry") = some x) :
    ∃ E', Does L (fs.flatMap (fun f => defaultS (numberE print) f.defaultValue ++
        [.expr (.method (str "values") (str "emplace_back") none [.text f.name, moveE (str "entry")])])) E E' ∧
      E' (str "values") = some (.value (.map (acc ++ fs.map fun f => (f.name, f.defaultValue)))) := by
  induction fs generalizing acc E x with
  | nil => exact ⟨E, Does.nil L E, by simpa using hm⟩
  | cons f fs ih =>
    have h1 := does_default print L f.defaultValue (hv f (by simp)) hx
    have hf : f.name ∉ acc.map (·.1) := by
      intro hc
      rw [List.nodup_append] at hd
      exact hd.2.2 _ hc _ (by simp) rfl
    have h2 := does_emplace (L := L) (E := E.set (str "entry") (.value f.defaultValue)) (x := str "values") (n := f.name)
      (acc := acc) (v := f.defaultValue) (by rw [set_other _ _ entry_ne.2.2.2.symm, hm]) (set_same _ _ _)
      entry_ne.2.2.2.symm (hn f (by simp)) hf
    obtain ⟨E', h3, h4⟩ := ih (fun g hg => hn g (by simp [hg])) (fun g hg => hv g (by simp [hg]))
      (acc := acc ++ [(f.name, f.defaultValue)]) (by simpa using hd)
      (E := ((E.set (str "entry") (.value f.defaultValue)).set (str "entry") .moved).set (str "values")
        (.value (.map (acc ++ [(f.name, f.defaultValue)]))))
      (x := .moved) (set_same _ _ _) (by rw [set_other _ _ entry_ne.2.2.2, set_same])
    exact ⟨E', Does.of_eq ((h1.then h2).then h3) (by simp), by simpa using h4⟩

theorem defaults_eq (fs : List InputField) : defaults fs = .map ((withDefault fs).map fun f => (f.name, f.defaultValue)) := by
  rw [defaults, withDefault]
  congr 1
  induction fs with
  | nil => rfl
  | cons f fs ih =>
    by_cases h : f.defaultValue.type = .null <;> simp [h, ih]

/-- The variable of the default values. -/
theorem does_defaults (print : Double → Str) (L : Library) {fs : List InputField} (h : FieldsOk print L.read fs) {E : Scope}
    {d : Str} (hd : E d = none) :
    ∃ E', Does L (defaultsS (numberE print) d fs) E E' ∧ (∀ y, y ≠ d → E' y = E y) ∧
      ((∃ f ∈ fs, f.defaultValue.type ≠ .null) → E' d = some (.value (defaults fs))) := by
  by_cases hw : (withDefault fs).isEmpty
  · refine ⟨E, ?_, fun _ _ => rfl, ?_⟩
    · rw [defaultsS, if_pos hw]; exact Does.nil L E
    · rintro ⟨f, hf, hn⟩
      rw [List.isEmpty_iff] at hw
      have : f ∈ withDefault fs := by simp [withDefault, hf, hn]
      rw [hw] at this
      exact absurd this (by simp)
  · have hs : ∀ f ∈ withDefault fs, f ∈ fs := fun f hf => (List.mem_filter.1 hf).1
    have h0 : Does L (containerS "values" "Map") Scope.empty (lambdaScope "values" .map) :=
      does_container (by decide +kernel) (by decide)
    have hnd : ((withDefault fs).map (·.name)).Nodup := by
      have : ((withDefault fs).map (·.name)).Sublist (fs.map (·.name)) := List.filter_sublist.map _
      exact this.nodup h.names
    obtain ⟨E1, h1, h2⟩ := does_values print L (withDefault fs) (fun f hf => h.name f (hs f hf)) (fun f hf => h.default f (hs f hf))
      (acc := []) (by simpa using hnd) (E := lambdaScope "values" .map)
      (x := .value .null) (by simp [lambdaScope, set_other _ _ entry_ne.2.2.2.symm, set_same, initial]) (by simp [lambdaScope, set_same])
    have he := eval_invoke (h0.then h1) (x := "values") h2 E
    refine ⟨E.set d (.value (defaults fs)), ?_, fun y hy => set_other _ _ hy, fun _ => set_same _ _ _⟩
    rw [defaultsS, if_neg hw]
    refine Does.one ?_
    simp only [List.append_assoc] at he
    rw [exec, hd]
    simp only [he, Out.map, Out.bind, defaults_eq, List.nil_append]

/-! ## Fields -/

theorem modifiers_ok (ms : List Mod) : (ms.map modPath).mapM modifier = some ms := by
  have h : ∀ m, modifier (modPath m) = some m := by intro m; cases m <;> decide +kernel
  induction ms with
  | nil => rfl
  | cons m ms ih => simp [h, ih]

theorem eval_access {L : Library} {ns : Path} {f : InputField} {E : Scope} {A : Expr} {args : Resp}
    (hA : eval L A E = .ok (.value args, E)) (m : String) :
    eval L (accessE ns m A f) E =
      (argumentCall (L.convert (accessPath ns f)) (str m) f.modifiers f.name args).map fun v => (v, E) := by
  have hl : evalList L [.text f.name, A] E = .ok ([.text f.name, .value args], E) := by
    simp [evalList, eval, hA, Out.bind, Out.map]
  rw [accessE, eval, if_pos rfl, hl]
  simp only [Out.bind, modifiers_ok]

/-- What some statements do, for a result of the model. -/
def Follows {α : Type} (L : Library) (ss : List Stmt) (E : Scope) (r : Res α) (P : α → Scope → Prop) : Prop :=
  match r with
  | .ok a => ∃ E', Does L ss E E' ∧ P a E'
  | .error e => execs L ss E = .throws e
  | .depth => execs L ss E = .depth

section
variable {L : Library} {ns : Path} {pre root d : Str} {A : Expr} {args dv : Resp} {c : InputField → Resp → Res Data}

theorem run_field {f : InputField} (hc : ∀ v, L.convert (accessPath ns f) v = Out.of (c f v)) {E : Scope}
    (hA : ∀ E', E' root = E root → eval L A E' = .ok (.value args, E'))
    (hd : f.defaultValue.type ≠ .null → E d = some (.value dv))
    (h1 : E (pre ++ capital f) = none) (h2 : E (pairVar f) = none) (hp : pairVar f ≠ pre ++ capital f)
    (hdp : d ≠ pairVar f) :
    Follows L (declarationS ns pre A (.name (word d)) f) E (getArgument (c f) dv f args) fun a E' =>
      E' (pre ++ capital f) = some (.arg a) ∧ ∀ y, y ≠ pre ++ capital f → y ≠ pairVar f → E' y = E y := by
  have hreq : ∀ a, requireOut (L.convert (accessPath ns f)) f.modifiers f.name a = Out.of (require (c f) f.modifiers f.name a) :=
    requireOut_of hc _ _
  have nf : str "find" ≠ str "require" := by decide
  by_cases hn : f.defaultValue.type = .null
  · have he := eval_access (ns := ns) (f := f) (hA E rfl) "require"
    rw [declarationS, if_pos hn, getArgument]
    simp only [argumentCall, if_true, hreq] at he
    cases hq : require (c f) f.modifiers f.name args with
    | ok a =>
      rw [hq] at he
      refine ⟨E.set (pre ++ capital f) (.arg a), Does.one ?_, set_same _ _ _, fun y hy _ => set_other _ _ hy⟩
      rw [exec, h1]; simp only [he]; rfl
    | error e =>
      rw [hq] at he
      simp only [hn, if_true]
      show execs _ _ _ = _
      rw [execs, exec, h1]; simp only [he]; rfl
    | depth =>
      rw [hq] at he
      show execs _ _ _ = _
      rw [execs, exec, h1]; simp only [he]; rfl
  · have he := eval_access (ns := ns) (f := f) (hA E rfl) "find"
    simp only [argumentCall, if_true, if_neg nf, hreq] at he
    rw [declarationS, if_neg hn, getArgument]
    have second : ∀ found, (E.set (pairVar f) (.pair found)) (pairVar f) = some (.pair found) := fun _ => set_same _ _ _
    have hnone : ∀ w, (E.set (pairVar f) w) (pre ++ capital f) = none := fun w => by rw [set_other _ _ hp.symm, h1]
    cases hq : require (c f) f.modifiers f.name args with
    | ok a =>
      rw [hq] at he
      refine ⟨((E.set (pairVar f) (.pair (some a))).set (pairVar f) .moved).set (pre ++ capital f) (.arg a), ?_, set_same _ _ _,
        fun y hy hy' => by rw [set_other _ _ hy, set_other _ _ hy', set_other _ _ hy']⟩
      have s1 : Does L [.auto false (pairVar f) (accessE ns "find" A f)] E (E.set (pairVar f) (.pair (some a))) := by
        refine Does.one ?_
        rw [exec, h2]; simp only [he]; rfl
      refine s1.then (Does.one ?_)
      rw [exec, hnone, eval, eval, second]
      simp only [if_true, Option.isSome, Out.bind]
      simp [eval, second, Out.map, Out.bind]
    | error e =>
      rw [hq] at he
      have s1 : Does L [.auto false (pairVar f) (accessE ns "find" A f)] E (E.set (pairVar f) (.pair none)) := by
        refine Does.one ?_
        rw [exec, h2]; simp only [he]; rfl
      have hdv : eval L (.name (word d)) (E.set (pairVar f) (.pair none)) = .ok (.value dv, E.set (pairVar f) (.pair none)) :=
        eval_name (by rw [set_other _ _ hdp, hd hn]) (by simp)
      have he2 := eval_access (ns := ns) (f := f) hdv "require"
      simp only [argumentCall, if_true, hreq] at he2
      have ex : exec L (.auto false (pre ++ capital f) (.cond (.member (pairVar f) (str "second"))
            (.call (path "std" ["move"]) [.member (pairVar f) (str "first")]) (accessE ns "require" (.name (word d)) f)))
            (E.set (pairVar f) (.pair none)) =
          (Out.of (require (c f) f.modifiers f.name dv)).map fun a =>
            (none, (E.set (pairVar f) (.pair none)).set (pre ++ capital f) (.arg a)) := by
        rw [exec, hnone, eval, eval, second]
        simp only [if_true, Option.isSome, Out.bind, he2]
        cases require (c f) f.modifiers f.name dv <;> rfl
      simp only [if_neg hn]
      have hs : ∀ s, execs L [.auto false (pairVar f) (accessE ns "find" A f), s] E =
          execs L [s] (E.set (pairVar f) (.pair none)) := by
        intro s
        rw [show [Stmt.auto false (pairVar f) (accessE ns "find" A f), s] = [.auto false (pairVar f) (accessE ns "find" A f)] ++ [s]
          from rfl, execs_append, s1]
        rfl
      cases hq2 : require (c f) f.modifiers f.name dv with
      | ok a =>
        rw [hq2] at ex
        exact ⟨_, s1.then (Does.one ex), set_same _ _ _, fun y hy hy' => by rw [set_other _ _ hy, set_other _ _ hy']⟩
      | error e' =>
        rw [hq2] at ex
        show execs _ _ _ = _
        rw [hs, execs, ex]; rfl
      | depth =>
        rw [hq2] at ex
        show execs _ _ _ = _
        rw [hs, execs, ex]; rfl
    | depth =>
      rw [hq] at he
      show execs _ _ _ = _
      rw [execs, exec, h2]; simp only [he]; rfl

theorem Follows.append {α β : Type} {a b : List Stmt} {E : Scope} {r : Res α} {s : α → Res β} {P : α → Scope → Prop}
    {Q : β → Scope → Prop} (h : Follows L a E r P) (k : ∀ x E', P x E' → Follows L b E' (s x) Q) :
    Follows L (a ++ b) E (r.bind s) Q := by
  cases r with
  | ok x =>
    obtain ⟨E', h1, h2⟩ := h
    have hk := k x E' h2
    have e : execs L (a ++ b) E = execs L b E' := by rw [execs_append, h1]; rfl
    simp only [Res.bind]
    cases hs : s x with
    | ok y =>
      rw [hs] at hk
      obtain ⟨E'', h3, h4⟩ := hk
      exact ⟨E'', h1.then h3, h4⟩
    | error e' => rw [hs] at hk; exact e.trans hk
    | depth => rw [hs] at hk; exact e.trans hk
  | error e => show execs _ _ _ = _; rw [execs_append, show execs L a E = _ from h]; rfl
  | depth => show execs _ _ _ = _; rw [execs_append, show execs L a E = _ from h]; rfl

theorem Follows.imp {α : Type} {a : List Stmt} {E : Scope} {r : Res α} {P Q : α → Scope → Prop} (h : Follows L a E r P)
    (k : ∀ x E', P x E' → Q x E') : Follows L a E r Q := by
  cases r with
  | ok x => obtain ⟨E', h1, h2⟩ := h; exact ⟨E', h1, k _ _ h2⟩
  | error e => exact h
  | depth => exact h

theorem run_fields (fs : List InputField) (hc : ∀ f ∈ fs, ∀ v, L.convert (accessPath ns f) v = Out.of (c f v)) {E : Scope}
    (hA : ∀ E', E' root = E root → eval L A E' = .ok (.value args, E'))
    (hd : ∀ f ∈ fs, f.defaultValue.type ≠ .null → E d = some (.value dv))
    (h1 : ∀ f ∈ fs, E (pre ++ capital f) = none ∧ E (pairVar f) = none)
    (hp : ∀ f g, pairVar f ≠ pre ++ capital g)
    (hr : ∀ f ∈ fs, root ≠ pairVar f ∧ root ≠ pre ++ capital f) (hdp : ∀ f ∈ fs, d ≠ pairVar f ∧ d ≠ pre ++ capital f)
    (hn : (fs.map capital).Nodup) :
    Follows L (fs.flatMap (declarationS ns pre A (.name (word d)))) E (getArguments c dv fs args) fun as E' =>
      List.Forall₂ (fun f a => a.1 = f.name ∧ E' (pre ++ capital f) = some (.arg a.2)) fs as ∧
      ∀ y, (∀ f ∈ fs, y ≠ pre ++ capital f ∧ y ≠ pairVar f) → E' y = E y := by
  induction fs generalizing E with
  | nil => exact ⟨E, Does.nil L E, .nil, fun _ _ => rfl⟩
  | cons f fs ih =>
    rw [List.map_cons, List.nodup_cons] at hn
    have hne : ∀ g ∈ fs, capital g ≠ capital f := fun g hg e => hn.1 (e ▸ List.mem_map_of_mem hg)
    rw [List.flatMap_cons]
    refine Follows.append (run_field (hc f (by simp)) hA (hd f (by simp)) (h1 f (by simp)).1 (h1 f (by simp)).2 (hp f f)
      (hdp f (by simp)).1) fun a E1 ⟨ha, hE1⟩ => ?_
    have hs := ih (fun g hg => hc g (by simp [hg])) (E := E1)
      (fun E' hE' => hA E' (by rw [hE', hE1 _ (hr f (by simp)).2 (hr f (by simp)).1]))
      (fun g hg h => by rw [hE1 _ (hdp f (by simp)).2 (hdp f (by simp)).1]; exact hd g (by simp [hg]) h)
      (fun g hg => by
        rw [hE1 _ (fun e => hne g hg (List.append_cancel_left e)) (hp f g).symm,
          hE1 _ (hp g f) (fun e => hne g hg (List.append_cancel_left e))]
        exact h1 g (by simp [hg]))
      (fun g hg => hr g (by simp [hg])) (fun g hg => hdp g (by simp [hg])) hn.2
    rw [← List.append_nil (fs.flatMap _)]
    refine Follows.append hs fun as E2 ⟨has, hE2⟩ => ⟨E2, Does.nil _ _, .cons ⟨rfl, ?_⟩ has, fun y hy => ?_⟩
    · rw [hE2 _ fun g hg => ⟨fun e => hne g hg (List.append_cancel_left e).symm, (hp g f).symm⟩, ha]
    · rw [hE2 _ fun g hg => hy g (by simp [hg]), hE1 _ (hy f (by simp)).1 (hy f (by simp)).2]

end

/-! ## Structures -/

theorem eval_moves {L : Library} (xs : List Str) (as : List (Arg Data)) {E : Scope} (hn : xs.Nodup)
    (h : List.Forall₂ (fun x a => E x = some (.arg a)) xs as) :
    ∃ E', evalList L (xs.map moveE) E = .ok (as.map .arg, E') ∧ ∀ y, y ∉ xs → E' y = E y := by
  induction xs generalizing E as with
  | nil => cases h; exact ⟨E, by simp [evalList], fun _ _ => rfl⟩
  | cons x xs ih =>
    cases h with
    | cons h1 h2 =>
      rename_i a as
      rw [List.nodup_cons] at hn
      have he : eval L (moveE x) E = .ok (.arg a, E.set x .moved) := by simp [moveE, eval, word, h1]
      obtain ⟨E', h3, h4⟩ := ih as (E := E.set x .moved) hn.2 (by
        rw [List.forall₂_iff_get] at h2 ⊢
        refine ⟨h2.1, fun i hi hj => ?_⟩
        have hne : xs.get ⟨i, hi⟩ ≠ x := fun e => hn.1 (e ▸ List.get_mem xs ⟨i, hi⟩)
        rw [set_other _ _ hne]
        exact h2.2 i hi hj)
      refine ⟨E', by simp [evalList, he, h3, Out.bind, Out.map], fun y hy => ?_⟩
      rw [List.mem_cons, not_or] at hy
      rw [h4 y hy.2, set_other _ _ hy.1]

theorem structure_ok {names : List Str} {as : List (Str × Arg Data)} (h : names = as.map (·.1)) :
    structure? names (.braces ((as.map (·.2)).map .arg)) = some (.object as) := by
  subst h
  have e : ∀ (g : Val → Option (Arg Data)) (as : List (Arg Data)), (∀ a, g (.arg a) = some a) →
      (as.map Val.arg).mapM g = some as := by
    intro g as hg
    induction as with
    | nil => rfl
    | cons a as ih => simp [hg, ih]
  have hz : (as.map (·.1)).zip (as.map (·.2)) = as := by
    clear e
    induction as with
    | nil => rfl
    | cons a as ih => simp only [List.map_cons, List.zip_cons_cons, ih]
  rw [structure?, e _ _ fun a => rfl, Option.bind_some, if_pos (by simp), hz]

/-! ## Conversions -/

theorem input_run {read : Str → Double} {print : Double → Str} {ns : Path} {t : InputType} (h : FieldsOk print read t.fields)
    {cv : Path → Resp → Out Data} {c : InputField → Resp → Res Data}
    (hc : ∀ f ∈ t.fields, ∀ v, cv (accessPath ns f) v = Out.of (c f v)) (v : Resp) {members : List Str}
    (hm : members = t.fields.map (·.name)) :
    ((execs ⟨read, cv⟩ (inputF (numberE print) ns t).body (Scope.empty.set (inputF (numberE print) ns t).x (.value v))).bind
      fun r => Out.ofOption (r.1.bind (structure? members))) =
      Out.of ((getArguments c (defaults t.fields) t.fields v).map .object) := by
  obtain ⟨E1, h1, h2, h3⟩ := does_defaults print ⟨read, cv⟩ h (E := Scope.empty.set (str "value") (.value v)) (d := str "defaultValue")
    (by rw [set_other _ _ (by decide)]; rfl)
  have hv : E1 (str "value") = some (.value v) := by rw [h2 _ (by decide), set_same]
  have hcap : ∀ f ∈ t.fields, capital f ≠ [] := fun f hf e => by
    obtain ⟨c, cs, h, -⟩ := capital_name (h.name f hf); rw [e] at h; cases h
  have first : ∀ (s t : Str), str "value" ++ s ≠ str "defaultValue" := fun s t e => absurd (List.head_eq_of_cons_eq e) (by decide)
  have firstp : ∀ (f : InputField), pairVar f ≠ str "defaultValue" := fun f e => absurd (List.head_eq_of_cons_eq e) (by decide)
  have pv : ∀ (f : InputField) (s : Str), pairVar f ≠ str "value" ++ s := fun f s e => absurd (List.head_eq_of_cons_eq e) (by decide)
  have vne : ∀ f ∈ t.fields, str "value" ++ capital f ≠ str "value" := fun f hf e => hcap f hf (by
    have := congrArg List.length e
    simpa using this)
  have hr := run_fields (L := ⟨read, cv⟩) (ns := ns) (pre := str "value") (root := str "value") (d := str "defaultValue")
    (A := var "value") (args := v) (dv := defaults t.fields) (c := c) t.fields hc (E := E1)
    (fun E' hE' => eval_name (hE'.trans hv) (by simp)) (fun f hf hn => h3 ⟨f, hf, hn⟩)
    (fun f hf => by
      refine ⟨?_, ?_⟩
      · rw [h2 _ (first _ []), set_other _ _ (vne f hf)]; rfl
      · rw [h2 _ (firstp f), set_other _ _ fun e => pv f [] (by rw [e, List.append_nil])]; rfl)
    (fun f g => pv f _) (fun f hf => ⟨fun e => pv f [] (by rw [← e, List.append_nil]), (vne f hf).symm⟩)
    (fun f hf => ⟨(firstp f).symm, (first _ []).symm⟩) h.distinct
  have hb : (inputF (numberE print) ns t).body = defaultsS (numberE print) (str "defaultValue") t.fields ++
    (t.fields.flatMap (declarationS ns (str "value") (var "value") (.name (word (str "defaultValue")))) ++
    [.ret (.braces (t.fields.map fun f => moveE (str "value" ++ capital f)))]) := rfl
  have hd : ∀ ss, execs ⟨read, cv⟩ (defaultsS (numberE print) (str "defaultValue") t.fields ++ ss)
      (Scope.empty.set (str "value") (.value v)) = execs ⟨read, cv⟩ ss E1 := fun ss => by
    rw [execs_append, h1]; rfl
  rw [hb, show (inputF (numberE print) ns t).x = str "value" from rfl, hd]
  cases hg : getArguments c (defaults t.fields) t.fields v with
  | ok as =>
    rw [hg] at hr
    obtain ⟨E2, h4, h5, -⟩ := hr
    obtain ⟨E3, h6⟩ := eval_moves (L := ⟨read, cv⟩) (t.fields.map fun f => str "value" ++ capital f) (as.map (·.2)) (E := E2)
      (by
        have := h.distinct.map (f := fun s => str "value" ++ s) (fun _ _ e => List.append_cancel_left e)
        simpa [List.map_map, Function.comp_def] using this)
      (by
        rw [List.forall₂_map_left_iff, List.forall₂_map_right_iff]
        exact h5.imp fun f a hh => hh.2)
    have hnames : members = as.map (·.1) := by
      rw [hm]
      clear hg h4 h6 hm hc h hcap vne
      revert h5
      generalize t.fields = fs
      intro h5
      induction h5 with
      | nil => rfl
      | cons hh _ ih => rw [List.map_cons, List.map_cons, hh.1, ih]
    rw [execs_append, h4]
    simp only [List.map_map, Function.comp_def] at h6
    simp only [Out.bind, execs, exec, eval, h6, Out.map, Option.bind_some]
    have := structure_ok hnames
    simp only [List.map_map, Function.comp_def] at this
    rw [this]; rfl
  | error e => rw [hg] at hr; rw [execs_append, show execs _ _ _ = _ from hr]; rfl
  | depth => rw [hg] at hr; rw [execs_append, show execs _ _ _ = _ from hr]; rfl

theorem typePath_inj {ns : Path} {a b : Str} (h : typePath ns a = typePath ns b) : cpp a = cpp b := by
  have := congrArg Cpp.Path.tail h
  simpa [typePath] using this

theorem known_type {T : Types} {ns : Path} (hns : ns.head ≠ str "response") (type : Str) :
    knownConversions T ns (typePath ns type) =
      (T.enums.find? fun e => typePath ns e.type = typePath ns type).map fun e v => .of (convertEnum T e.type v) := by
  have h : ∀ ss, typePath ns type ≠ path "response" ss := fun ss e => hns (congrArg Cpp.Path.head e)
  simp only [knownConversions, valueT, h, if_false]

theorem convert_run {print : Double → Str} {read : Str → Double} {T : Types} {ns : Path} (h : TypesOk print read T ns)
    (depth : Nat) (f : InputField) (hf : TypeKnown T f) (v : Resp) :
    convertWith read (knownConversions T ns) (structures T ns) (T.inputs.map (inputF (numberE print) ns)) depth (accessPath ns f) v =
      Out.of (convert T depth f v) := by
  induction depth using Nat.strongRecOn generalizing f v with
  | _ depth ih =>
  have hinj : ∀ a ∈ T.enums.map (·.type) ++ T.inputs.map (·.type), ∀ b ∈ T.enums.map (·.type) ++ T.inputs.map (·.type),
      cpp a = cpp b → a = b := fun a ha b hb e => List.inj_on_of_nodup_map h.distinct ha hb e
  cases hk : f.fieldType with
  | builtin =>
    rw [convertWith.eq_def, convert.eq_def]; simp only [hk]
    simp only [accessPath, hk]
    by_cases h1 : f.type = str "Int"
    · have : knownConversions T ns (builtinPath f.type) = some fun v => .of (convertBuiltin f.type v) := by
        simp [knownConversions, builtinPath, h1]
      rw [this]
    by_cases h2 : f.type = str "Float"
    · have e : path "response" ["FloatType"] ≠ path "response" ["IntType"] := by decide
      have e' : str "Float" ≠ str "Int" := by decide
      have : knownConversions T ns (builtinPath f.type) = some fun v => .of (convertBuiltin f.type v) := by
        simp [knownConversions, builtinPath, h2, e, e']
      rw [this]
    by_cases h3 : f.type = str "String"
    · have e1 : path "response" ["StringType"] ≠ path "response" ["IntType"] := by decide
      have e2 : path "response" ["StringType"] ≠ path "response" ["FloatType"] := by decide
      have e1' : str "String" ≠ str "Int" := by decide
      have e2' : str "String" ≠ str "Float" := by decide
      have : knownConversions T ns (builtinPath f.type) = some fun v => .of (convertBuiltin f.type v) := by
        simp [knownConversions, builtinPath, h3, e1, e2, e1', e2']
      rw [this]
    by_cases h4 : f.type = str "Boolean"
    · have e1 : path "response" ["BooleanType"] ≠ path "response" ["IntType"] := by decide
      have e2 : path "response" ["BooleanType"] ≠ path "response" ["FloatType"] := by decide
      have e3 : path "response" ["BooleanType"] ≠ path "response" ["StringType"] := by decide
      have e1' : str "Boolean" ≠ str "Int" := by decide
      have e2' : str "Boolean" ≠ str "Float" := by decide
      have e3' : str "Boolean" ≠ str "String" := by decide
      have : knownConversions T ns (builtinPath f.type) = some fun v => .of (convertBuiltin f.type v) := by
        simp [knownConversions, builtinPath, h4, e1, e2, e3, e1', e2', e3']
      rw [this]
    have e1 : path "response" ["IdType"] ≠ path "response" ["IntType"] := by decide
    have e2 : path "response" ["IdType"] ≠ path "response" ["FloatType"] := by decide
    have e3 : path "response" ["IdType"] ≠ path "response" ["StringType"] := by decide
    have e4 : path "response" ["IdType"] ≠ path "response" ["BooleanType"] := by decide
    have : knownConversions T ns (builtinPath f.type) = some fun v => .of (convertBuiltin (str "ID") v) := by
      simp only [knownConversions, builtinPath, h1, h2, h3, h4, e1, e2, e3, e4, if_false, if_true]
    rw [this]
    have e1' : str "ID" ≠ str "Int" := by decide
    have e2' : str "ID" ≠ str "Float" := by decide
    have e3' : str "ID" ≠ str "String" := by decide
    have e4' : str "ID" ≠ str "Boolean" := by decide
    simp only [convertBuiltin, h1, h2, h3, h4, e1', e2', e3', e4', if_false]
  | scalar =>
    rw [convertWith.eq_def, convert.eq_def]; simp only [hk]
    simp only [accessPath, hk]
    have e1 : valueT ≠ path "response" ["IntType"] := by decide
    have e2 : valueT ≠ path "response" ["FloatType"] := by decide
    have e3 : valueT ≠ path "response" ["StringType"] := by decide
    have e4 : valueT ≠ path "response" ["BooleanType"] := by decide
    have e5 : valueT ≠ path "response" ["IdType"] := by decide
    have : knownConversions T ns valueT = some fun v => .of (Gen.Client.wrap .scalar (Modifiers.convertScalar v)) := by
      simp only [knownConversions, e1, e2, e3, e4, e5, if_false, if_true]
    rw [this]
  | enum =>
    rw [convertWith.eq_def, convert.eq_def]; simp only [hk]
    simp only [accessPath, hk]
    rw [known_type h.namespace']
    obtain ⟨e, he, het⟩ : ∃ e ∈ T.enums, e.type = f.type := by simpa [TypeKnown, hk] using hf
    obtain ⟨e', he'⟩ : ∃ e', T.enums.find? (fun e => typePath ns e.type = typePath ns f.type) = some e' := by
      rw [← Option.isSome_iff_exists, List.find?_isSome]
      exact ⟨e, he, by simp [het]⟩
    have ht : e'.type = f.type := by
      have h1 := List.find?_some he'
      have h2 := List.mem_of_find?_eq_some he'
      rw [← het]
      refine hinj _ (by simp; exact .inl ⟨e', h2, rfl⟩) _ (by simp; exact .inl ⟨e, he, rfl⟩) (typePath_inj (ns := ns) ?_)
      simpa [het] using h1
    rw [he', Option.map_some, ht]
  | input =>
    obtain ⟨i, hi, hit⟩ : ∃ i ∈ T.inputs, i.type = f.type := by simpa [TypeKnown, hk] using hf
    have hne : T.enums.find? (fun e => typePath ns e.type = typePath ns f.type) = none := by
      rw [List.find?_eq_none]
      intro e he hc
      have hc := typePath_inj (by simpa using hc : typePath ns e.type = typePath ns f.type)
      have hd := h.distinct
      rw [List.map_append, List.nodup_append] at hd
      exact hd.2.2 (cpp e.type) (List.mem_map_of_mem (List.mem_map_of_mem he)) (cpp i.type)
        (List.mem_map_of_mem (List.mem_map_of_mem hi)) (by rw [hit]; exact hc)
    have huniq : ∀ j ∈ T.inputs, cpp j.type = cpp i.type → j = i := by
      intro j hj e
      have hd : (T.inputs.map fun i => cpp i.type).Nodup := by
        have hd := h.distinct
        rw [List.map_append, List.nodup_append, List.map_map, List.map_map] at hd
        exact hd.2.1
      exact List.inj_on_of_nodup_map hd hj hi e
    have hfind : ∀ p : InputType → Bool, p i = true → (∀ j ∈ T.inputs, p j = true → cpp j.type = cpp i.type) →
        T.inputs.find? p = some i := by
      intro p hp hu
      obtain ⟨j, hj⟩ : ∃ j, T.inputs.find? p = some j := by
        rw [← Option.isSome_iff_exists, List.find?_isSome]
        exact ⟨i, hi, hp⟩
      rw [hj, huniq j (List.mem_of_find?_eq_some hj) (hu j (List.mem_of_find?_eq_some hj) (List.find?_some hj))]
    have hstruct : structures T ns (typePath ns f.type) = i.fields.map (·.name) := by
      rw [structures, hfind _ (by simp [hit]) fun j _ e => typePath_inj (ns := ns) (by simpa [hit] using e)]
      rfl
    have hfields : T.fields f.type = i.fields := by
      rw [Types.fields, hfind _ (by simp [hit]) fun j _ e => by rw [hit, show j.type = f.type by simpa using e]]
      rfl
    have hfn : (T.inputs.map (inputF (numberE print) ns)).find? (fun g => g.c = word (str "ModifiedArgument") ∧
        g.t = typePath ns f.type ∧ g.f = str "convert") = some (inputF (numberE print) ns i) := by
      rw [List.find?_map, hfind _ (by simp [inputF, hit]) fun j _ e => typePath_inj (ns := ns) (by
        rw [hit]; have e := of_decide_eq_true e; exact e.2.1)]
      rfl
    rw [convertWith.eq_def, convert.eq_def]; simp only [hk]
    simp only [accessPath, hk]
    rw [known_type h.namespace', hne]
    simp only [Option.map_none, hfn]
    cases depth with
    | zero => rfl
    | succ depth =>
      simp only [hfields]
      exact input_run (h.fields i hi) (fun g hg w => ih depth (by omega) g (h.known i hi g hg) w) v hstruct

/-- The variables of the arguments. -/
theorem arguments_run {print : Double → Str} {L : Library} {ns : Path} {fs : List InputField} (h : FieldsOk print L.read fs)
    {c : InputField → Resp → Res Data} (hc : ∀ f ∈ fs, ∀ v, L.convert (accessPath ns f) v = Out.of (c f v)) (args : Resp) :
    Follows L (argumentsS (numberE print) ns fs) (Scope.empty.set (str "params") (.params args))
      (getArguments c (defaults fs) fs args) fun as E' =>
      List.Forall₂ (fun f a => a.1 = f.name ∧ E' (str "arg" ++ capital f) = some (.arg a.2)) fs as ∧
      E' (str "params") = some (.params args) ∧
      ∀ y, y ≠ str "params" → y ≠ str "defaultArguments" → (∀ f ∈ fs, y ≠ str "arg" ++ capital f ∧ y ≠ pairVar f) → E' y = none := by
  obtain ⟨E1, h1, h2, h3⟩ := does_defaults print L h (E := Scope.empty.set (str "params") (.params args)) (d := str "defaultArguments")
    (by rw [set_other _ _ (by decide)]; rfl)
  have hv : E1 (str "params") = some (.params args) := by rw [h2 _ (by decide), set_same]
  have first : ∀ (s : Str), str "arg" ++ s ≠ str "defaultArguments" := fun s e => absurd (List.head_eq_of_cons_eq e) (by decide)
  have firstp : ∀ (f : InputField), pairVar f ≠ str "defaultArguments" := fun f e => absurd (List.head_eq_of_cons_eq e) (by decide)
  have pv : ∀ (f : InputField) (s : Str), pairVar f ≠ str "arg" ++ s := fun f s e => absurd (List.head_eq_of_cons_eq e) (by decide)
  have pp : ∀ (f : InputField), str "params" ≠ pairVar f := fun f e => by
    have : str "par" = str "pai" := congrArg (List.take 3) e
    exact absurd this (by decide)
  have pa : ∀ (s : Str), str "params" ≠ str "arg" ++ s := fun s e => absurd (List.head_eq_of_cons_eq e) (by decide)
  have hr := run_fields (L := L) (ns := ns) (pre := str "arg") (root := str "params") (d := str "defaultArguments")
    (A := .member (str "params") (str "arguments")) (args := args) (dv := defaults fs) (c := c) fs hc (E := E1)
    (fun E' hE' => by rw [eval, hE', hv]; rfl) (fun f hf hn => h3 ⟨f, hf, hn⟩)
    (fun f hf => by
      refine ⟨?_, ?_⟩
      · rw [h2 _ (first _), set_other _ _ (pa _).symm]; rfl
      · rw [h2 _ (firstp f), set_other _ _ (pp f).symm]; rfl)
    (fun f g => pv f _) (fun f hf => ⟨pp f, pa _⟩)
    (fun f hf => ⟨(firstp f).symm, (first _).symm⟩) h.distinct
  have hd : ∀ ss, execs L (defaultsS (numberE print) (str "defaultArguments") fs ++ ss)
      (Scope.empty.set (str "params") (.params args)) = execs L ss E1 := fun ss => by
    rw [execs_append, h1]; rfl
  have hr := hr.imp (Q := fun as E' => List.Forall₂ (fun f a => a.1 = f.name ∧ E' (str "arg" ++ capital f) = some (.arg a.2)) fs as ∧
      E' (str "params") = some (.params args) ∧
      ∀ y, y ≠ str "params" → y ≠ str "defaultArguments" → (∀ f ∈ fs, y ≠ str "arg" ++ capital f ∧ y ≠ pairVar f) → E' y = none)
    fun _ _ hh => ⟨hh.1, (hh.2 _ fun f _ => ⟨pa _, pp f⟩).trans hv, fun y y1 y2 y3 => by
      rw [hh.2 y y3, h2 _ y2, set_other _ _ y1]; rfl⟩
  cases hg : getArguments c (defaults fs) fs args with
  | ok as =>
    rw [hg] at hr
    obtain ⟨E2, h4, h5⟩ := hr
    exact ⟨E2, h1.then h4, h5⟩
  | error e => rw [hg] at hr; exact (hd _).trans hr
  | depth => rw [hg] at hr; exact (hd _).trans hr

end Verif.GenCode
