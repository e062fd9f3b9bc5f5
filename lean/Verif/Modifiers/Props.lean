import Verif.Modifiers.Model
import Verif.Base64.Props
import Verif.Json.Spec

/-!
# C17 and C40: arguments, client variables and client results under type modifiers
-/
namespace Verif.Modifiers
open Verif.Value Verif.Resp Verif.Errors

/-! ## Specification -/

/-- `Fits leaf ms v a`: the value `v` denotes `a` of the type described by the modifiers, outermost first. Null occurs
exactly where a `nullable` modifier has the value `none`, a list exactly at a `list` modifier, with its elements in
order; at the leaves `leaf` relates value and result. -/
inductive Fits {α : Type} (leaf : Resp → α → Prop) : (ms : List Mod) → Resp → Arg α → Prop where
  | leaf {v a} : leaf v a → Fits leaf [] v (.leaf a)
  | null {ms} : Fits leaf (.nullable :: ms) .null .none
  | some {ms v a} : v ≠ .null → Fits leaf ms v a → Fits leaf (.nullable :: ms) v (.some a)
  | nil {ms} : Fits leaf (.list :: ms) (.list []) (.list [])
  | cons {ms v vs a as} : Fits leaf ms v a → Fits leaf (.list :: ms) (.list vs) (.list as) →
      Fits leaf (.list :: ms) (.list (v :: vs)) (.list (a :: as))

/-- `xs` and `ys` have the same length and are related element by element. -/
inductive Each {β γ : Type} (R : β → γ → Prop) : List β → List γ → Prop where
  | nil : Each R [] []
  | cons {x xs y ys} : R x y → Each R xs ys → Each R (x :: xs) (y :: ys)

/-! ## C17 -/

theorem find_single (name : Str) (v : Resp) : Members.find (Members.emplace [] name v) name = some v := by
  simp [Members.emplace, Members.find, List.find?]

theorem mapE_ok {β γ : Type} (f : β → Except Exn γ) (xs : List β) (ys : List γ) :
    mapE f xs = .ok ys ↔ Each (fun x y => f x = .ok y) xs ys := by
  induction xs generalizing ys with
  | nil =>
    simp only [mapE, Except.ok.injEq]
    constructor
    · rintro rfl; exact .nil
    · intro h; cases h; rfl
  | cons x xs ih =>
    simp only [mapE]
    cases hx : f x with
    | error e =>
      simp only [reduceCtorEq, false_iff]
      intro h; cases h with | cons h1 h2 => rw [hx] at h1; cases h1
    | ok y =>
      cases hxs : mapE f xs with
      | error e =>
        simp only [reduceCtorEq, false_iff]
        intro h; cases h with | cons h1 h2 => rw [(ih _).2 h2] at hxs; cases hxs
      | ok ys' =>
        simp only [Except.ok.injEq]
        constructor
        · rintro rfl; exact .cons hx ((ih _).1 hxs)
        · intro h
          cases h with
          | cons h1 h2 =>
            rw [hx] at h1; cases h1
            rw [(ih _).2 h2] at hxs; cases hxs; rfl

theorem fits_list {α : Type} {leaf : Resp → α → Prop} {ms : List Mod} {vs : List Resp} {as : List (Arg α)} :
    Fits leaf (.list :: ms) (.list vs) (.list as) ↔ Each (Fits leaf ms) vs as := by
  constructor
  · intro h
    induction vs generalizing as with
    | nil => cases h; exact .nil
    | cons v vs ih => cases h with | cons h1 h2 => exact .cons h1 (ih h2)
  · intro h
    induction h with
    | nil => exact .nil
    | cons h1 _ ih => exact .cons h1 ih

/-- Only lists of results fit a list modifier. -/
theorem fits_list_inv {α : Type} {leaf : Resp → α → Prop} {ms : List Mod} {v : Resp} {a : Arg α}
    (h : Fits leaf (.list :: ms) v a) : ∃ vs as, v = .list vs ∧ a = .list as := by
  cases h <;> exact ⟨_, _, rfl, rfl⟩

theorem each_congr {β γ : Type} {R S : β → γ → Prop} (h : ∀ a b, R a b ↔ S a b) (xs : List β) (ys : List γ) :
    Each R xs ys ↔ Each S xs ys := by
  have : R = S := by funext a b; exact propext (h a b)
  rw [this]

theorem require_present {α : Type} (convert : Resp → Except Exn α) (ms : List Mod) (name : Str) (arguments : Members)
    (v : Resp) (h : arguments.find name = some v) (a : Arg α) :
    require convert ms name arguments = .ok a ↔ Fits (fun v a => convert v = .ok a) ms v a := by
  induction ms generalizing arguments v a with
  | nil =>
    simp only [require, requireLeaf, index, h]
    constructor
    · intro hr
      cases hc : convert v with
      | ok b => rw [hc] at hr; cases hr; exact Fits.leaf hc
      | error e => rw [hc] at hr; cases hr
    · intro hf
      cases hf with
      | leaf hc => simp [hc]
  | cons m ms ih =>
    cases m with
    | nullable =>
      by_cases hn : v = .null
      · subst hn
        simp only [require, h]
        constructor
        · intro hr; cases hr; exact .null
        · intro hf
          cases hf with
          | null => rfl
          | some hne _ => exact absurd rfl hne
      · have hreq : require convert (.nullable :: ms) name arguments =
            (match require convert ms name arguments with
            | .ok a => .ok (.some a)
            | .error e => .error e) := by
          rw [require, h]
          split
          · rename_i h'; cases h'
          · rename_i h'; cases h'; exact absurd rfl hn
          · rfl
        rw [hreq]
        constructor
        · intro hr
          cases hc : require convert ms name arguments with
          | error e => rw [hc] at hr; cases hr
          | ok b => rw [hc] at hr; cases hr; exact .some hn ((ih arguments v h b).1 hc)
        · intro hf
          cases hf with
          | null => exact absurd rfl hn
          | some _ hf => rw [(ih arguments v h _).2 hf]
    | list =>
      simp only [require, index, h]
      cases v with
      | list xs =>
        simp only [elementsOf]
        have key : ∀ as, mapE (fun element => require convert ms name (Members.emplace [] name element)) xs = .ok as ↔
            Fits (fun v a => convert v = .ok a) (.list :: ms) (.list xs) (.list as) := by
          intro as
          rw [mapE_ok, fits_list]
          exact each_congr (fun x b => ih _ x (find_single name x) b) xs as
        constructor
        · intro hr
          cases hm : mapE (fun element => require convert ms name (Members.emplace [] name element)) xs with
          | error e => rw [hm] at hr; cases hr
          | ok as => rw [hm] at hr; cases hr; exact (key as).1 hm
        · intro hf
          obtain ⟨_, as, _, rfl⟩ := fits_list_inv hf
          rw [(key as).2 hf]
      | _ => simp only [elementsOf, reduceCtorEq, false_iff]; intro hf; cases hf

/-- C17: converting an argument succeeds exactly if the supplied value fits the modifiers, and then gives the one
result of that shape, with every list element in its place. A missing argument is accepted exactly if the outermost
modifier is nullable, and gives the absent value. -/
theorem C17_require_iff {α : Type} (convert : Resp → Except Exn α) (ms : List Mod) (name : Str) (arguments : Members)
    (a : Arg α) :
    require convert ms name arguments = .ok a ↔
      (∃ v, arguments.find name = some v ∧ Fits (fun v a => convert v = .ok a) ms v a) ∨
      (arguments.find name = none ∧ (∃ ms', ms = .nullable :: ms') ∧ a = .none) := by
  cases hf : arguments.find name with
  | some v => simp [require_present convert ms name arguments v hf a]
  | none =>
    cases ms with
    | nil => simp [require, requireLeaf, index, hf]
    | cons m ms =>
      cases m with
      | nullable =>
        simp [require, hf, eq_comm]
      | list => simp [require, index, hf]

/-- A value fits in at most one way: the result is determined by the argument. -/
theorem C17_unique {α : Type} (convert : Resp → Except Exn α) (ms : List Mod) (v : Resp) (a b : Arg α)
    (ha : Fits (fun v a => convert v = .ok a) ms v a) (hb : Fits (fun v a => convert v = .ok a) ms v b) : a = b := by
  have h1 := (require_present convert ms [] [([], v)] v rfl a).2 ha
  have h2 := (require_present convert ms [] [([], v)] v rfl b).2 hb
  rw [h1] at h2
  exact Except.ok.inj h2

/-- What `require` returns is of the C++ type of the modifiers. -/
theorem C17_typed {α : Type} (convert : Resp → Except Exn α) (ms : List Mod) (v : Resp) (a : Arg α)
    (h : Fits (fun v a => convert v = .ok a) ms v a) : HasType ms a := by
  induction h with
  | leaf => exact .leaf
  | null => exact .none
  | some _ _ ih => exact .some ih
  | nil => exact .list (by simp)
  | cons _ _ ih1 ih2 =>
    cases ih2 with
    | list h => exact .list (by
        intro x hx
        rcases List.mem_cons.1 hx with rfl | hx
        · exact ih1
        · exact h x hx)

/-- C17: `find` never throws; its flag says whether the argument fits, and then the value is the converted one;
otherwise it is the empty value. -/
theorem C17_find {α : Type} (convert : Resp → Except Exn α) (d : α) (ms : List Mod) (name : Str) (arguments : Members) :
    (∀ a, find convert d ms name arguments = (a, true) ↔ require convert ms name arguments = .ok a) ∧
    ((find convert d ms name arguments).2 = false → (find convert d ms name arguments).1 = Arg.empty d ms) := by
  unfold find
  cases require convert ms name arguments <;> simp

/-- C17: an error about a value which does not convert names the argument. -/
theorem C17_error_names_argument {α : Type} (convert : Resp → Except Exn α) (name : Str) (arguments : Members) (v : Resp)
    (h : arguments.find name = some v) (errors : List SchemaError) (hc : convert v = .error (.schema errors)) :
    require convert [] name arguments = .error (.schema (errors.map fun e =>
      { e with message := str "Invalid argument: " ++ name ++ str " error: " ++ e.message })) := by
  simp [require, requireLeaf, index, h, hc, prefixErrors]

example : require convertInt [.nullable, .list, .nullable] (str "a")
    [(str "b", .null), (str "a", .list [.int 1, .null, .int 3])] = .ok (.some (.list [.some (.leaf 1), .none, .some (.leaf 3)])) := rfl
example : require convertInt [.list] (str "a") [(str "a", .list [.int 1, .null])]
    = .error (.schema [{ message := str "Invalid argument: a error: not an integer" }]) := rfl

/-- The built-in conversions accept exactly one type of value each, except that `Float` accepts integers. -/
theorem C17_builtin (v : Resp) :
    (∀ i, convertInt v = .ok i ↔ v = .int i) ∧
    (∀ d, convertFloat v = .ok d ↔ v = .float d ∨ ∃ i : Int, v = .int i ∧ d = .finite i) ∧
    (∀ s, convertString v = .ok s ↔ ∃ j, v = .string s j) ∧
    (∀ b, convertBoolean v = .ok b ↔ v = .boolean b) ∧
    (∀ bytes, convertId v = .ok bytes ↔ ∃ s j, v = .string s j ∧ Verif.Base64.fromBase64 s = .ok bytes) := by
  refine ⟨?_, ?_, ?_, ?_, ?_⟩
  · cases v <;> simp [convertInt]
  · cases v <;> simp [convertFloat, Double.ofInt]
    intro d; exact eq_comm
  · cases v <;> simp [convertString]
  · cases v <;> simp [convertBoolean]
  · cases v <;> simp [convertId]
    rename_i s j
    intro bytes
    cases Verif.Base64.fromBase64 s <;> simp

/-! ## C40 -/

/-- No two nullable modifiers directly inside each other (GraphQL types cannot have them). -/
def NoDoubleNullable : List Mod → Prop
  | .nullable :: .nullable :: _ => False
  | _ :: ms => NoDoubleNullable ms
  | [] => True

theorem serialize_ne_null {α : Type} (leaf : α → Resp) (hl : ∀ a, leaf a ≠ .null) (ms : List Mod)
    (h : ∀ ms', ms ≠ .nullable :: ms') (a : Arg α) (ht : HasType ms a) : serialize leaf ms a ≠ .null := by
  cases ht with
  | leaf => exact hl _
  | none => exact absurd rfl (h _)
  | some => exact absurd rfl (h _)
  | list => simp [serialize]

/-- A serialised variable fits the modifiers, with the original value. -/
theorem serialize_fits {α : Type} (leaf : α → Resp) (R : Resp → α → Prop) (hl : ∀ a, leaf a ≠ .null)
    (hR : ∀ a, R (leaf a) a) (ms : List Mod) (hm : NoDoubleNullable ms) (a : Arg α) (ht : HasType ms a) :
    Fits R ms (serialize leaf ms a) a := by
  induction ms generalizing a with
  | nil => cases ht; exact .leaf (hR _)
  | cons m ms ih =>
    cases m with
    | nullable =>
      have hms : ∀ ms', ms ≠ .nullable :: ms' := by
        rintro ms' rfl; exact hm
      have hm' : NoDoubleNullable ms := by
        cases ms with
        | nil => trivial
        | cons m' ms' =>
          cases m' with
          | nullable => exact absurd rfl (hms ms')
          | list => exact hm
      cases ht with
      | none => exact .null
      | some ht => exact .some (serialize_ne_null leaf hl ms hms _ ht) (ih hm' _ ht)
    | list =>
      have hm' : NoDoubleNullable ms := hm
      cases ht with
      | list hts =>
        rename_i as
        rw [serialize, fits_list]
        induction as with
        | nil => exact .nil
        | cons a as iha =>
          exact .cons (ih hm' a (hts a (by simp))) (iha fun x hx => hts x (by simp [hx]))

/-- C40: what the client serialises as a variable, the service reads as the original value. -/
theorem C40_variable_roundtrip {α : Type} (leaf : α → Resp) (convert : Resp → Except Exn α)
    (hl : ∀ a, leaf a ≠ .null) (hc : ∀ a, convert (leaf a) = .ok a) (ms : List Mod) (hm : NoDoubleNullable ms)
    (a : Arg α) (ht : HasType ms a) (name : Str) (arguments : Members)
    (h : arguments.find name = some (serialize leaf ms a)) :
    require convert ms name arguments = .ok a :=
  (require_present convert ms name arguments _ h a).2 (serialize_fits leaf _ hl hc ms hm a ht)

theorem parse_fits {α : Type} (leaf : Resp → Except Exn α) (ms : List Mod) (v : Resp) (a : Arg α)
    (h : Fits (fun v a => leaf v = .ok a) ms v a) : parse leaf ms v = .ok a := by
  induction ms generalizing v a with
  | nil => cases h with | leaf h => simp [parse, h]
  | cons m ms ih =>
    cases m with
    | nullable =>
      cases h with
      | null => rfl
      | some hne hf =>
        rw [parse, ih _ _ hf]
        exact hne
    | list =>
      obtain ⟨vs, as, rfl, rfl⟩ := fits_list_inv h
      rw [fits_list] at h
      have : mapE (parse leaf ms) vs = .ok as := by
        rw [mapE_ok]
        induction h with
        | nil => exact .nil
        | cons h1 _ ihl => exact .cons (ih _ _ h1) ihl
      simp [parse, this]

/-- C40: the client parses every result of the given shape to exactly that shape; in particular a result built the
way the service builds it (`serialize`) parses to the original. -/
theorem C40_response_roundtrip {α : Type} (leaf : α → Resp) (parseLeaf : Resp → Except Exn α)
    (hl : ∀ a, leaf a ≠ .null) (hc : ∀ a, parseLeaf (leaf a) = .ok a) (ms : List Mod) (hm : NoDoubleNullable ms)
    (a : Arg α) (ht : HasType ms a) : parse parseLeaf ms (serialize leaf ms a) = .ok a :=
  parse_fits parseLeaf ms _ a (serialize_fits leaf _ hl hc ms hm a ht)

/-- C40: the built-in types meet the hypotheses of the two theorems above. (`Scalar` does not: a null custom scalar is
indistinguishable from an absent value.) -/
theorem C40_builtin_leaves :
    ((∀ i, serializeInt i ≠ .null) ∧ (∀ i, convertInt (serializeInt i) = .ok i ∧ parseInt (serializeInt i) = .ok i)) ∧
    ((∀ d, serializeFloat d ≠ .null) ∧
      (∀ d, convertFloat (serializeFloat d) = .ok d ∧ parseFloat (serializeFloat d) = .ok d)) ∧
    ((∀ s, serializeString s ≠ .null) ∧
      (∀ s, convertString (serializeString s) = .ok s ∧ parseString (serializeString s) = .ok s)) ∧
    ((∀ b, serializeBoolean b ≠ .null) ∧
      (∀ b, convertBoolean (serializeBoolean b) = .ok b ∧ parseBoolean (serializeBoolean b) = .ok b)) ∧
    ((∀ x, serializeId x ≠ .null) ∧ (∀ x, convertId (serializeId x) = .ok x ∧ parseId (serializeId x) = .ok x)) := by
  refine ⟨⟨by simp [serializeInt], fun _ => ⟨rfl, rfl⟩⟩, ⟨by simp [serializeFloat], fun _ => ⟨rfl, rfl⟩⟩,
    ⟨by simp [serializeString], fun _ => ⟨rfl, rfl⟩⟩, ⟨by simp [serializeBoolean], fun _ => ⟨rfl, rfl⟩⟩, ?_, ?_⟩
  · intro x
    unfold serializeId
    cases Verif.Base64.toBase64 x <;> simp
  · intro x
    obtain ⟨txt, h1, h2⟩ := Verif.Base64.C01_base64_roundtrip x
    simp [serializeId, h1, convertId, parseId, h2]

/-- C40: the modifiers of GraphQL types meet the hypothesis: `[Int!]` as an example. -/
example : NoDoubleNullable [.nullable, .list] := by simp [NoDoubleNullable]

/-- Variables travel as JSON: reading a serialised variable after a JSON round trip (`normalize`, C07) gives the same. -/
theorem C40_variable_through_json {α : Type} (leaf : α → Resp) (convert : Resp → Except Exn α)
    (hl : ∀ a, Verif.Json.Spec.normalize (leaf a) ≠ .null)
    (hc : ∀ a, convert (Verif.Json.Spec.normalize (leaf a)) = .ok a) (ms : List Mod)
    (hm : NoDoubleNullable ms) (a : Arg α) (ht : HasType ms a) (name : Str) (arguments : Members)
    (h : arguments.find name = some (Verif.Json.Spec.normalize (serialize leaf ms a))) :
    require convert ms name arguments = .ok a := by
  have key : ∀ (ms : List Mod) (a : Arg α), HasType ms a → Verif.Json.Spec.normalize (serialize leaf ms a)
      = serialize (fun a => Verif.Json.Spec.normalize (leaf a)) ms a := by
    intro ms a ht
    induction ms generalizing a with
    | nil => cases ht; rfl
    | cons m ms ih =>
      cases ht with
      | none => simp [serialize, Verif.Json.Spec.normalize]
      | some ht => exact ih _ ht
      | list hts =>
        rename_i as
        have hn : Verif.Json.Spec.normalizeList (as.map (serialize leaf ms)) =
            as.map (serialize (fun a => Verif.Json.Spec.normalize (leaf a)) ms) := by
          induction as with
          | nil => simp [Verif.Json.Spec.normalizeList]
          | cons x xs ihl =>
            simp [Verif.Json.Spec.normalizeList, ih x (hts x (by simp)), ihl fun y hy => hts y (by simp [hy])]
        simp [serialize, Verif.Json.Spec.normalize, hn]
  rw [key ms a ht] at h
  exact C40_variable_roundtrip _ convert hl hc ms hm a ht name arguments h

example (bytes : List Byte) : Verif.Json.Spec.normalize (serializeId bytes) ≠ .null ∧
    convertId (Verif.Json.Spec.normalize (serializeId bytes)) = .ok bytes := by
  obtain ⟨txt, h1, h2⟩ := Verif.Base64.C01_base64_roundtrip bytes
  simp [serializeId, h1, Verif.Json.Spec.normalize, convertId, h2]

/-- The client's list parser accepts anything: a value which is no list is silently an empty list. -/
theorem C40_list_parse_accepts_anything {α : Type} (leaf : Resp → Except Exn α) (ms : List Mod) (v : Resp)
    (h : v.type ≠ .list) : parse leaf (.list :: ms) v = .ok (.list []) := by
  cases v <;> first | rfl | exact absurd rfl h

/-- C40: the client reads a leaf only from a value of its type. -/
theorem C40_client_leaf (v : Resp) :
    (∀ i, parseInt v = .ok i ↔ v = .int i) ∧
    (∀ d, parseFloat v = .ok d ↔ v = .float d ∨ ∃ i, v = .int i ∧ d = Double.ofInt i) ∧
    (∀ s, parseString v = .ok s ↔ ∃ j, v = .string s j) ∧
    (∀ b, parseBoolean v = .ok b ↔ v = .boolean b) ∧
    (∀ bytes, parseId v = .ok bytes ↔ ∃ s j, v = .string s j ∧ Verif.Base64.fromBase64 s = .ok bytes) := by
  refine ⟨?_, ?_, ?_, ?_, ?_⟩
  · intro i; cases v <;> simp [parseInt]
  · intro d; cases v <;> simp [parseFloat, eq_comm]
  · intro s; cases v <;> simp [parseString]
  · intro b; cases v <;> simp [parseBoolean]
  · intro bytes
    cases v with
    | string s j =>
      simp only [parseId]
      cases h : Verif.Base64.fromBase64 s with
      | ok x =>
        constructor
        · intro hx; exact ⟨s, j, rfl, by rw [h]; simpa using hx⟩
        · rintro ⟨s', j', he, hx⟩
          simp only [Resp.string.injEq] at he
          rw [← he.1, h] at hx
          simpa using hx
      | error e =>
        constructor
        · intro hx; exact absurd hx (by simp)
        · rintro ⟨s', j', he, hx⟩
          simp only [Resp.string.injEq] at he
          rw [← he.1, h] at hx
          exact absurd hx (by simp)
    | _ => simp [parseId]

end Verif.Modifiers
