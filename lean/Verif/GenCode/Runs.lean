import Verif.GenCode.Tree
import Verif.GenCode.Read
import Mathlib.Data.List.Nodup

/-!
# Running the code of default values
-/
namespace Verif.GenCode
open Verif.Value Verif.Resp Verif.Errors Verif.Modifiers Verif.Text Verif.Gen.Service
open Verif.Gen (InputField InputType)
open Verif.Gen.Client (Data)
open Verif.Cpp (Path path word)
open Verif.Cpp.Code (Expr Stmt Function)

theorem set_same (E : Scope) (x : Str) (v : Val) : E.set x v x = some v := by simp [Scope.set]
theorem set_other (E : Scope) {x y : Str} (v : Val) (h : y ≠ x) : E.set x v y = E y := by simp [Scope.set, h]
theorem set_set (E : Scope) (x : Str) (v w : Val) : (E.set x v).set x w = E.set x w := by
  funext y; simp only [Scope.set]; split <;> rfl

/-! ## Numbers -/

theorem str_digits (n : Nat) : str (toString n) = (Nat.toDigits 10 n).map fun c => (BitVec.ofNat 8 c.toNat : Byte) := by
  have e : (toString n).toList = Nat.toDigits 10 n := by simp [toString, Nat.repr]
  simp [str, e]

theorem fold_digits (cs : List Char) (h : ∀ c ∈ cs, c.isDigit = true) (n : Nat) :
    (cs.map fun c => (BitVec.ofNat 8 c.toNat : Byte)).foldl (fun n c => 10 * n + (c.toNat - 48)) n = Nat.ofDigitChars 10 cs n := by
  induction cs generalizing n with
  | nil => simp
  | cons c cs ih =>
    have hc := h c (by simp)
    simp only [Char.isDigit, Bool.and_eq_true, decide_eq_true_eq] at hc
    have h2 : c.toNat ≤ 57 := hc.2
    have e : (BitVec.ofNat 8 c.toNat : Byte).toNat = c.toNat := by
      rw [BitVec.toNat_ofNat]; exact Nat.mod_eq_of_lt (by omega)
    rw [List.map_cons, List.foldl_cons, ih fun c hc => h c (by simp [hc]), Nat.ofDigitChars_cons, e]
    rfl

theorem digitsValue_ok (n : Nat) : digitsValue (str (toString n)) = n := by
  rw [digitsValue, str_digits, fold_digits _ fun c hc => Nat.isDigit_of_mem_toDigits (by decide) (by decide) hc]
  simp [Nat.ofDigitChars_toDigits]

theorem integer_ok {n : Nat} (h : n < 2 ^ 63) : integer (str (toString n)) = some n := by
  simp only [integer, digitsValue_ok, true_and, h, if_true]

theorem all_digits (n : Nat) : (str (toString n)).all isDigit = true := by
  obtain ⟨c, cs, e, h1, h2⟩ := GenText.number_digits n
  rw [e]
  simpa [h1] using h2

theorem int_value (read : Str → Double) {i : Int} (h1 : -2 ^ 31 ≤ i) (h2 : i < 2 ^ 31) :
    numberValue read (decide (i < 0)) (str (toString i.natAbs)) = some (.int i) := by
  have hn : i.natAbs < 2 ^ 63 := by omega
  rw [numberValue, all_digits, if_pos rfl, integer_ok hn]
  simp only [Option.map_some, Option.some.injEq, Val.int.injEq, decide_eq_true_eq]
  split <;> omega

/-! ## Running -/

theorem execs_append (L : Library) (a b : List Stmt) (E : Scope) :
    execs L (a ++ b) E = (execs L a E).bind fun r =>
      match r.1 with
      | some v => .ok (some v, r.2)
      | none => execs L b r.2 := by
  induction a generalizing E with
  | nil => simp [execs, Out.bind]
  | cons s a ih =>
    simp only [List.cons_append, execs]
    cases exec L s E with
    | ok r =>
      obtain ⟨v, E'⟩ := r
      cases v with
      | none => simp only [Out.bind]; exact ih E'
      | some v => simp [Out.bind]
    | throws e => rfl
    | depth => rfl
    | stuck => rfl

/-- Some statements which only change the variables. -/
def Does (L : Library) (ss : List Stmt) (E E' : Scope) : Prop := execs L ss E = .ok (none, E')

theorem Does.then {L : Library} {a b : List Stmt} {E E' E'' : Scope} (h : Does L a E E') (k : Does L b E' E'') :
    Does L (a ++ b) E E'' := by
  unfold Does at *
  rw [execs_append, h]
  exact k

theorem Does.one {L : Library} {s : Stmt} {E E' : Scope} (h : exec L s E = .ok (none, E')) : Does L [s] E E' := by
  simp [Does, execs, h, Out.bind]

theorem Does.nil (L : Library) (E : Scope) : Does L [] E E := by simp [Does, execs]

theorem entry_ne : str "entry" ≠ str "members" ∧ str "entry" ≠ str "elements" ∧ str "entry" ≠ str "scalar" ∧ str "entry" ≠ str "values" := by
  decide

/-- `entry = e;` -/
theorem does_assign {L : Library} {e : Expr} {E : Scope} {v : Resp} {x : Val} (hx : E (str "entry") = some x)
    (h : eval L e E = .ok (.value v, E)) : Does L [.assign (str "entry") e] E (E.set (str "entry") (.value v)) := by
  refine Does.one ?_
  simp [exec, h, Out.bind, hx]

theorem eval_name {L : Library} {E : Scope} {x : Str} {v : Val} (h : E x = some v) (hv : v ≠ .moved) :
    eval L (.name (word x)) E = .ok (v, E) := by
  cases v <;> simp_all [eval, word]

theorem eval_kind {L : Library} {E : Scope} {q : Path} {k : Ty} (h : kinds.lookup q = some k) (hq : q.tail ≠ []) :
    eval L (.name q) E = .ok (.kind k, E) := by
  simp [eval, hq, h, Out.ofOption, Out.map, Out.bind]

/-- The variables of a lambda. -/
def lambdaScope (x : String) (k : Ty) : Scope :=
  (Scope.empty.set (str x) (.value (initial k))).set (str "entry") (.value .null)

theorem does_container {L : Library} {x kind : String} {k : Ty} (hk : kinds.lookup (path "response" ["Type", kind]) = some k)
    (hx : str "entry" ≠ str x) : Does L (containerS x kind) Scope.empty (lambdaScope x k) := by
  have h1 : exec L (.varWith valueT (str x) (.name (path "response" ["Type", kind]))) Scope.empty =
      .ok (none, Scope.empty.set (str x) (.value (initial k))) := by
    simp [exec, Scope.empty, eval_kind hk (by simp [path]), Out.bind, construct, valueT, Out.ofOption, Out.map]
  have h2 : exec L (.var valueT (str "entry")) (Scope.empty.set (str x) (.value (initial k))) = .ok (none, lambdaScope x k) := by
    simp [exec, set_other _ _ hx, Scope.empty, valueT, lambdaScope]
  exact (Does.one h1).then (Does.one h2)

/-- `[]() { ...; return x; }()` -/
theorem eval_invoke {L : Library} {b : List Stmt} {x : String} {v : Resp} {E' : Scope} (h : Does L b Scope.empty E')
    (hv : E' (str x) = some (.value v)) (E : Scope) : eval L (.invoke (b ++ [.ret (var x)])) E = .ok (.value v, E) := by
  unfold Does at h
  have hr : exec L (.ret (var x)) E' = .ok (some (.value v), E') := by
    rw [exec, var, eval_name hv (by simp)]
    rfl
  simp [eval, execs_append, h, Out.bind, execs, hr]

theorem eval_move {L : Library} {E : Scope} {x : Str} {v : Resp} (h : E x = some (.value v)) :
    eval L (moveE x) E = .ok (.value v, E.set x .moved) := by
  simp [moveE, eval, word, h]

theorem cString_ok {s : Str} (h : (0 : Byte) ∉ s) : cString s = s := by
  unfold cString
  induction s with
  | nil => rfl
  | cons c s ih =>
    simp only [List.mem_cons, not_or] at h
    rw [List.takeWhile_cons, if_pos (by simpa using Ne.symm h.1), ih h.2]

theorem name_cString {s : Str} (h : IsName s) : cString s = s := by
  obtain ⟨c, cs, rfl, h1, h2⟩ := h
  refine cString_ok fun hm => ?_
  rcases List.mem_cons.1 hm with hm | hm
  · rw [← hm] at h1; exact absurd h1 (by decide)
  · exact absurd (h2 _ hm) (by decide)

theorem Does.of_eq {L : Library} {a b : List Stmt} {E E' : Scope} (h : Does L a E E') (e : b = a) : Does L b E E' := e ▸ h

/-- `x.emplace_back("n", std::move(entry));` -/
theorem does_emplace {L : Library} {E : Scope} {x n : Str} {acc : Members} {v : Resp} (hx : E x = some (.value (.map acc)))
    (he : E (str "entry") = some (.value v)) (hne : x ≠ str "entry") (hn : IsName n) (hd : n ∉ acc.map (·.1)) :
    Does L [.expr (.method x (str "emplace_back") none [.text n, moveE (str "entry")])] E
      ((E.set (str "entry") .moved).set x (.value (.map (acc ++ [(n, v)])))) := by
  refine Does.one ?_
  have h1 : evalList L [.text n, moveE (str "entry")] E = .ok ([.text n, .value v], E.set (str "entry") .moved) := by
    simp [evalList, eval, Out.bind, Out.map]
    simp [moveE, eval, word, he]
  have h2 : update (.map acc) (str "emplace_back") none [.text n, .value v] = some (.map (acc ++ [(n, v)])) := by
    simp only [update, and_self, if_true, name_cString hn, if_neg hd]
  simp [exec, eval, h1, Out.bind, Out.map, set_other _ _ hne, hx, h2, Out.ofOption]

theorem does_push {L : Library} {E : Scope} {acc : List Resp} {v : Resp} (hx : E (str "elements") = some (.value (.list acc)))
    (he : E (str "entry") = some (.value v)) :
    Does L [.expr (.method (str "elements") (str "emplace_back") none [moveE (str "entry")])] E
      ((E.set (str "entry") .moved).set (str "elements") (.value (.list (acc ++ [v])))) := by
  refine Does.one ?_
  have h1 : evalList L [moveE (str "entry")] E = .ok ([.value v], E.set (str "entry") .moved) := by
    simp [evalList, Out.bind, Out.map]
    simp [moveE, eval, word, he]
  have h2 : update (.list acc) (str "emplace_back") none [.value v] = some (.list (acc ++ [v])) := by
    simp [update]
  simp [exec, eval, h1, Out.bind, Out.map, set_other _ _ entry_ne.2.1.symm, hx, h2, Out.ofOption]

mutual
theorem does_default (print : Double → Str) (L : Library) (v : Resp) (h : DefaultOk print L.read v) {E : Scope} {x : Val}
    (hx : E (str "entry") = some x) : Does L (defaultS (numberE print) v) E (E.set (str "entry") (.value v)) := by
  match v with
  | .map members =>
    simp only [DefaultOk] at h
    have h0 : Does L (containerS "members" "Map") Scope.empty (lambdaScope "members" .map) := does_container (by decide +kernel) (by decide)
    obtain ⟨E', h1, h2, -⟩ := does_members print L members h.2 (acc := []) (by simpa using h.1) (E := lambdaScope "members" .map)
      (x := .value .null) (by simp [lambdaScope, set_other _ _ entry_ne.1.symm, set_same, initial]) (by simp [lambdaScope, set_same])
    have := eval_invoke (h0.then h1) (x := "members") h2 E
    simpa [defaultS] using does_assign hx this
  | .list elements =>
    simp only [DefaultOk] at h
    have h0 : Does L (containerS "elements" "List") Scope.empty (lambdaScope "elements" .list) := does_container (by decide +kernel) (by decide)
    obtain ⟨E', h1, h2, -⟩ := does_elements print L elements h (acc := []) (E := lambdaScope "elements" .list)
      (x := .value .null) (by simp [lambdaScope, set_other _ _ entry_ne.2.1.symm, set_same, initial]) (by simp [lambdaScope, set_same])
    have := eval_invoke (h0.then h1) (x := "elements") h2 E
    simpa [defaultS] using does_assign hx this
  | .string s j =>
    simp only [DefaultOk] at h
    obtain ⟨rfl, -, h⟩ := h
    have e1 : path "std" ["string"] ≠ path "std" ["move"] := by decide
    have e2 : valueT ≠ path "std" ["move"] := by decide
    have e3 : path "std" ["string"] ≠ path "response" ["Value"] := by decide
    refine Does.of_eq (does_assign hx (e := .call valueT [.call (path "std" ["string"]) [.text s]]) (v := .string s false) ?_)
      (by simp [defaultS])
    simp [eval, evalList, e1, e2, e3, Out.bind, Out.map, construct, Out.ofOption, cString_ok h, valueT]
    decide
  | .null =>
    refine Does.of_eq (a := [.assign (str "entry") (.braces [])]) (Does.one ?_) (by simp [defaultS])
    simp [exec, eval, evalList, Out.bind, Out.map, hx]
  | .boolean b =>
    refine Does.of_eq (does_assign hx (e := .call valueT [.boolean b]) (v := .boolean b) ?_) (by simp [defaultS])
    have e2 : path "response" ["Value"] ≠ path "std" ["move"] := by decide
    simp [eval, evalList, e2, Out.bind, Out.map, construct, Out.ofOption, valueT]
  | .int i =>
    simp only [DefaultOk] at h
    refine Does.of_eq (does_assign hx (e := .call valueT [.staticCast (path "response" ["IntType"]) (intE i)]) (v := .int i) ?_)
      (by simp [defaultS])
    have e2 : path "response" ["Value"] ≠ path "std" ["move"] := by decide
    have e3 : castTo (path "response" ["IntType"]) (.int i) = some (.int i) := by simp only [castTo, if_true, h, and_self]
    have he : eval L (intE i) E = .ok (.int i, E) := by
      rw [intE, eval, int_value L.read h.1 h.2]; rfl
    have hl : evalList L [.staticCast (path "response" ["IntType"]) (intE i)] E = .ok ([.int i], E) := by
      rw [evalList, eval, he]; simp [evalList, e3, Out.bind, Out.map, Out.ofOption]
    simp [valueT, eval, e2, hl, Out.bind, Out.map, construct, Out.ofOption]
  | .float d =>
    simp only [DefaultOk] at h
    refine Does.of_eq (does_assign hx (e := .call valueT [.staticCast (path "response" ["FloatType"]) (numberE print d)])
      (v := .float d) ?_) (by simp [defaultS])
    have e2 : path "response" ["Value"] ≠ path "std" ["move"] := by decide
    obtain ⟨w, h1, h2⟩ := Option.bind_eq_some_iff.1 h.2
    simp [eval, evalList, e2, h1, h2, Out.bind, Out.map, construct, Out.ofOption, valueT, numberE]
  | .enumValue s =>
    simp only [DefaultOk] at h
    have e2 : path "response" ["Value"] ≠ path "std" ["move"] := by decide
    have h1 : Does L [.assign (str "entry") (.call valueT [.name (path "response" ["Type", "EnumValue"])])] E
        (E.set (str "entry") (.value (.enumValue []))) := by
      refine does_assign hx ?_
      have hk := eval_kind (L := L) (E := E) (q := path "response" ["Type", "EnumValue"]) (k := .enumValue) (by decide +kernel) (by decide)
      have hl : evalList L [.name (path "response" ["Type", "EnumValue"])] E = .ok ([.kind .enumValue], E) := by
        rw [evalList, hk]; simp [evalList, Out.bind, Out.map]
      rw [valueT, eval, if_neg e2, hl]
      simp [Out.bind, Out.map, construct, Out.ofOption, initial]
    have h2 : Does L [.expr (.method (str "entry") (str "set") (some (path "response" ["StringType"])) [.text s])]
        (E.set (str "entry") (.value (.enumValue []))) ((E.set (str "entry") (.value (.enumValue []))).set (str "entry") (.value (.enumValue s))) := by
      refine Does.one ?_
      have hl : evalList L [.text s] (E.set (str "entry") (.value (.enumValue []))) = .ok ([.text s], E.set (str "entry") (.value (.enumValue []))) := by
        simp [evalList, eval, Out.bind, Out.map]
      have hu : update (.enumValue []) (str "set") (some (path "response" ["StringType"])) [.text s] = some (.enumValue s) := by
        have : str "set" ≠ str "emplace_back" := by decide
        simp [update, this, name_cString h]
      rw [exec, eval, hl]
      simp [Out.bind, Out.map, set_same, hu, Out.ofOption]
    have := h1.then h2
    rw [set_set] at this
    exact Does.of_eq this (by simp [defaultS])
  | .scalar w =>
    simp only [DefaultOk] at h
    have h0 : Does L (containerS "scalar" "Scalar") Scope.empty (lambdaScope "scalar" .scalar) := does_container (by decide +kernel) (by decide)
    match w with
    | none => exact absurd h (by simp [ScalarOk])
    | some w =>
      simp only [ScalarOk] at h
      have h1 := does_default print L w h (E := lambdaScope "scalar" .scalar) (x := .value .null) (by simp [lambdaScope, set_same])
      have he : ((lambdaScope "scalar" .scalar).set (str "entry") (.value w)) (str "entry") = some (.value w) := set_same _ _ _
      have hs : ((lambdaScope "scalar" .scalar).set (str "entry") (.value w)) (str "scalar") = some (.value (.scalar none)) := by
        rw [set_other _ _ entry_ne.2.2.1.symm, lambdaScope, set_other _ _ entry_ne.2.2.1.symm, set_same]; rfl
      generalize (lambdaScope "scalar" .scalar).set (str "entry") (.value w) = E1 at h1 he hs
      have h2 : Does L [.expr (.method (str "scalar") (str "set") (some (path "response" ["ScalarType"])) [moveE (str "entry")])] E1
          ((E1.set (str "entry") .moved).set (str "scalar") (.value (.scalar (some w)))) := by
        refine Does.one ?_
        have hl : evalList L [moveE (str "entry")] E1 = .ok ([.value w], E1.set (str "entry") .moved) := by
          rw [evalList, eval_move he]; simp [evalList, Out.bind, Out.map]
        have hu : update (.scalar none) (str "set") (some (path "response" ["ScalarType"])) [.value w] = some (.scalar (some w)) := by
          have h1 : str "set" ≠ str "emplace_back" := by decide
          have h2 : path "response" ["ScalarType"] ≠ path "response" ["StringType"] := by decide
          simp [update, h1, h2]
        rw [exec, eval, hl]
        simp [Out.bind, Out.map, set_other _ _ entry_ne.2.2.1.symm, hs, hu, Out.ofOption]
      have := eval_invoke (h0.then (h1.then h2)) (x := "scalar") (set_same _ _ _) E
      exact Does.of_eq (does_assign hx this) (by simp [defaultS, scalarS])
theorem does_members (print : Double → Str) (L : Library) (ms : List (Str × Resp)) (h : MembersOk print L.read ms) {acc : Members}
    (hd : ((acc ++ ms).map (·.1)).Nodup) {E : Scope} {x : Val} (hm : E (str "members") = some (.value (.map acc)))
    (hx : E (str "entry") = some x) :
    ∃ E', Does L (membersS (numberE print) ms) E E' ∧ E' (str "members") = some (.value (.map (acc ++ ms))) ∧
      ∃ y, E' (str "entry") = some y := by
  match ms with
  | [] => exact ⟨E, by simpa [membersS] using Does.nil L E, by simpa using hm, x, hx⟩
  | (n, v) :: ms =>
    simp only [MembersOk, MemberOk] at h
    have h1 := does_default print L v h.1.2 hx
    have hn : n ∉ acc.map (·.1) := by
      intro hc
      rw [List.map_append, List.nodup_append] at hd
      exact hd.2.2 n hc n (by simp) rfl
    have h2 := does_emplace (L := L) (E := E.set (str "entry") (.value v)) (x := str "members") (n := n) (acc := acc) (v := v)
      (by rw [set_other _ _ entry_ne.1.symm, hm]) (set_same _ _ _) entry_ne.1.symm h.1.1 hn
    obtain ⟨E', h3, h4, y, h5⟩ := does_members print L ms h.2 (acc := acc ++ [(n, v)]) (by simpa using hd)
      (E := ((E.set (str "entry") (.value v)).set (str "entry") .moved).set (str "members") (.value (.map (acc ++ [(n, v)]))))
      (x := .moved) (set_same _ _ _) (by rw [set_other _ _ entry_ne.1, set_same])
    exact ⟨E', Does.of_eq ((h1.then h2).then h3) (by simp [membersS, memberS]), by simpa using h4, y, h5⟩
theorem does_elements (print : Double → Str) (L : Library) (vs : List Resp) (h : ElementsOk print L.read vs) {acc : List Resp}
    {E : Scope} {x : Val} (hm : E (str "elements") = some (.value (.list acc)))
    (hx : E (str "entry") = some x) :
    ∃ E', Does L (elementsS (numberE print) vs) E E' ∧ E' (str "elements") = some (.value (.list (acc ++ vs))) ∧
      ∃ y, E' (str "entry") = some y := by
  match vs with
  | [] => exact ⟨E, by simpa [elementsS] using Does.nil L E, by simpa using hm, x, hx⟩
  | v :: vs =>
    simp only [ElementsOk] at h
    have h1 := does_default print L v h.1 hx
    have h2 := does_push (L := L) (E := E.set (str "entry") (.value v)) (acc := acc) (v := v)
      (by rw [set_other _ _ entry_ne.2.1.symm, hm]) (set_same _ _ _)
    obtain ⟨E', h3, h4, y, h5⟩ := does_elements print L vs h.2 (acc := acc ++ [v])
      (E := ((E.set (str "entry") (.value v)).set (str "entry") .moved).set (str "elements") (.value (.list (acc ++ [v]))))
      (x := .moved) (set_same _ _ _) (by rw [set_other _ _ entry_ne.2.1, set_same])
    exact ⟨E', Does.of_eq ((h1.then h2).then h3) (by simp [elementsS]), by simpa using h4, y, h5⟩
end

end Verif.GenCode
