import Verif.GenCode.Claims
import Verif.GenText.Examples

/-!
# C73: an example, and what goes wrong for other default values and names
-/
namespace Verif.GenCode
open Verif.Value Verif.Resp Verif.Errors Verif.Text Verif.Gen.Service
open Verif.Modifiers (Mod Arg)
open Verif.Gen (InputField InputType EnumType EnumValueType)
open Verif.Gen.Client (Data)
open Verif.GenText (cpp IsNamespace Closed nameB_ok closeB_ok)
open Verif.Cpp (Path path word keywords)
open Verif.Cpp.Code (Expr Stmt Function ReadsBody ReadsFunctions)

/-! ## An example -/

def isDouble (v : Option Val) (d : Double) : Bool :=
  match v with
  | some (.double e) => decide (e = d)
  | _ => false

theorem isDouble_ok {v : Option Val} {d : Double} (h : isDouble v d = true) : v = some (.double d) := by
  unfold isDouble at h
  split at h
  · rw [of_decide_eq_true h]
  · cases h

/-- `1.5`, `-2.25e+10` and `3`; nothing else is asked. -/
def print : Double → Str
  | .finite q => if q = 3 / 2 then str "1.5" else if q = 3 then str "3" else if q = -22500000000 then str "-2.25e+10" else []
  | .negZero => str "-0"
  | _ => str "nan"

def read (s : Str) : Double :=
  if s = str "1.5" then .finite (3 / 2) else if s = str "2.25e+10" then .finite 22500000000
  else if s = str "1.23457" then .finite (123457 / 100000) else .nan

/-- An object with a list, null, an enum value, a string with a quote and a newline, and numbers. -/
def value : Resp :=
  .map [(str "list", .list [.int (-5), .null, .boolean true, .list []]), (str "kind", .enumValue (str "SMALL")),
    (str "text", .string (str "a \"b\"\n)gql") false), (str "x", .float (.finite (-22500000000))), (str "y", .float (.finite 3)),
    (str "deep", .scalar (some (.map [(str "z", .float (.finite (3 / 2)))])))]

theorem value_ok : DefaultOk print read value := by
  simp only [DefaultOk, MembersOk, MemberOk, ElementsOk, ScalarOk, value, FloatOk]
  refine ⟨by decide +kernel, ⟨nameB_ok (by decide +kernel), ?_⟩, ⟨nameB_ok (by decide +kernel), nameB_ok (by decide +kernel)⟩,
    ⟨nameB_ok (by decide +kernel), trivial, closeB_ok (by decide +kernel), by decide +kernel⟩,
    ⟨nameB_ok (by decide +kernel), by decide +kernel, isDouble_ok (by decide +kernel)⟩,
    ⟨nameB_ok (by decide +kernel), by decide +kernel, isDouble_ok (by decide +kernel)⟩,
    ⟨nameB_ok (by decide +kernel), ⟨by decide +kernel, ⟨nameB_ok (by decide +kernel), by decide +kernel, isDouble_ok (by decide +kernel)⟩, trivial⟩⟩, trivial⟩
  refine ⟨by decide, trivial, trivial, trivial, trivial⟩

/-- An input object with fields of all kinds, which contains itself. -/
def types : Types where
  enums := [{ type := str "Size", values := [{ value := str "SMALL" }] }]
  inputs :=
    [{ type := str "Filter"
       fields :=
        [{ type := str "Int", name := str "first", defaultValue := .int 10 },
         { type := str "Size", name := str "size", fieldType := .enum, modifiers := [.nullable, .list] },
         { type := str "Any", name := str "any", fieldType := .scalar, defaultValue := value },
         { type := str "Filter", name := str "and", fieldType := .input, modifiers := [.nullable] }] },
     { type := str "Empty", fields := [] }]

/-- A boolean version of `FieldsOk` without the default values. -/
def fieldsB (fs : List InputField) : Bool :=
  fs.all (fun f => GenText.nameB f.name && GenText.nameB f.type && decide (cpp f.type ∉ keywords)) &&
  decide (fs.map (·.name)).Nodup && decide (fs.map capital).Nodup

theorem fieldsB_ok {fs : List InputField} (h : fieldsB fs = true) (hd : ∀ f ∈ fs, DefaultOk p r f.defaultValue) : FieldsOk p r fs := by
  simp only [fieldsB, Bool.and_eq_true, List.all_eq_true, decide_eq_true_eq] at h
  exact ⟨fun f hf => nameB_ok (h.1.1 f hf).1.1, fun f hf => ⟨nameB_ok (h.1.1 f hf).1.2, (h.1.1 f hf).2⟩, hd, h.1.2, h.2⟩

def nsPath : Path := ⟨str "my", [str "schema"]⟩

theorem types_ok : TypesOk print read types nsPath where
  namespace' := by decide
  name := by
    intro i hi
    simp only [types, List.mem_cons, List.not_mem_nil, or_false] at hi
    rcases hi with rfl | rfl <;> exact ⟨nameB_ok (by decide +kernel), by decide +kernel⟩
  fields := by
    intro i hi
    simp only [types, List.mem_cons, List.not_mem_nil, or_false] at hi
    rcases hi with rfl | rfl
    · refine fieldsB_ok (by decide +kernel) fun f hf => ?_
      simp only [List.mem_cons, List.not_mem_nil, or_false] at hf
      rcases hf with rfl | rfl | rfl | rfl
      · simp [DefaultOk]
      · simp [DefaultOk]
      · exact value_ok
      · simp [DefaultOk]
    · exact fieldsB_ok (by decide +kernel) fun f hf => absurd hf (by simp)
  known := by
    intro i hi f hf
    simp only [types, List.mem_cons, List.not_mem_nil, or_false] at hi
    rcases hi with rfl | rfl
    · simp only [List.mem_cons, List.not_mem_nil, or_false] at hf
      rcases hf with rfl | rfl | rfl | rfl <;> simp [TypeKnown, types]
    · simp at hf
  distinct := by decide +kernel

theorem ns_ok : IsNamespace (str "my::schema") nsPath := by
  refine ⟨by decide, fun s hs => ?_⟩
  simp only [nsPath, List.mem_cons, List.not_mem_nil, or_false] at hs
  rcases hs with rfl | rfl <;> exact ⟨nameB_ok (by decide +kernel), by decide +kernel⟩

/-- The example has the hypotheses of all the theorems. -/
theorem C73_example :
    (∃! fs, ReadsFunctions (types.inputs.flatMap (inputText print (str "my::schema"))) fs) ∧
    (∀ i ∈ types.inputs, ∃! ss, ReadsBody (argumentsText print (str "my::schema") i.fields) ss) ∧
    ∃! ss, ReadsBody (defaultText print 0 value) ss :=
  have h := C73_code ns_ok types_ok
  ⟨h.1, fun i hi => h.2.1 _ (types_ok.fields i hi), h.2.2 _ _ value_ok⟩

/-- An object in an object, with and without the default value of `first`. -/
def arguments : Members :=
  [(str "and", .map [(str "first", .int 5), (str "size", .list [.enumValue (str "SMALL")]), (str "any", .int 7)])]

/-- What the arguments are: the defaults of `first` and `any` are used outside, and not inside. -/
def converted : List (Str × Arg Data) :=
  [(str "first", .leaf (.int 10)), (str "size", .none), (str "any", .leaf (.scalar value)),
   (str "and", .some (.leaf (.object [(str "first", .leaf (.int 5)), (str "size", .some (.list [.leaf (.enum 0)])), (str "any", .leaf (.scalar (.int 7))),
     (str "and", .none)])))]

def filterFields : List InputField := types.fields (str "Filter")

theorem converted_ok : resolverArguments types 2 filterFields arguments = .ok converted := by rfl

/-- The variables of the arguments, when the code runs. -/
theorem C73_example_run {fs : List Function} (hf : ReadsFunctions (types.inputs.flatMap (inputText print (str "my::schema"))) fs)
    {ss : List Stmt} (hs : ReadsBody (argumentsText print (str "my::schema") filterFields) ss) :
    ∃ E, execs ⟨read, convertWith read (knownConversions types nsPath) (structures types nsPath) fs 2⟩ ss
        (Scope.empty.set (str "params") (.params (.map arguments))) = .ok (none, E) ∧
      E (str "argFirst") = some (.arg (.leaf (.int 10))) ∧ E (str "argSize") = some (.arg .none) ∧
      E (str "argAny") = some (.arg (.leaf (.scalar value))) ∧
      E (str "argAnd") = some (.arg (.some (.leaf (.object [(str "first", .leaf (.int 5)),
        (str "size", .some (.list [.leaf (.enum 0)])), (str "any", .leaf (.scalar (.int 7))), (str "and", .none)])))) := by
  have h := C73_arguments ns_ok types_ok hf (fields := filterFields) (types_ok.fields _ (List.mem_cons_self ..))
    (fun f hm => types_ok.known _ (List.mem_cons_self ..) f hm) hs 2 arguments
  simp only [converted_ok] at h
  obtain ⟨E, h1, h2⟩ := h
  have h3 := (List.forall₂_iff_get.1 h2).2
  exact ⟨E, h1, (h3 0 (by decide) (by decide)).2, (h3 1 (by decide) (by decide)).2, (h3 2 (by decide) (by decide)).2,
    (h3 3 (by decide) (by decide)).2⟩

/-! ## What goes wrong -/

/-- Reads the tokens of a text. -/
def lexAll : (n : Nat) → Str → Option (List Cpp.Tok)
  | _, [] => some []
  | 0, _ => none
  | n + 1, c :: s =>
    if Cpp.isSpace c then lexAll n s
    else (Cpp.token (c :: s)).bind fun r => (lexAll n r.2).map (r.1 :: ·)

theorem lexAll_ok {n : Nat} {s : Str} {a : List Cpp.Tok} (h : lexAll n s = some a) : Cpp.Lexes s a := by
  induction n generalizing s a with
  | zero =>
    cases s with
    | nil => simp only [lexAll, Option.some.injEq] at h; exact h ▸ .done
    | cons c s => simp [lexAll] at h
  | succ n ih =>
    cases s with
    | nil => simp only [lexAll, Option.some.injEq] at h; exact h ▸ .done
    | cons c s =>
      simp only [lexAll] at h
      split at h
      · rename_i hc; exact .space hc (ih h)
      · simp only [Option.bind_eq_some_iff, Option.map_eq_some_iff] at h
        obtain ⟨⟨t, r⟩, h1, b, h2, rfl⟩ := h
        exact .token h1 (ih h2)

def one (s : Str) : List Stmt := [.assign (str "entry") (.call valueT [.call (path "std" ["string"]) [.text s]])]
def two (s t : Str) : List Stmt := one s ++ one t

/-- **Finding.** A string which contains `)gql"` ends the literal, and what follows is code: here the default value becomes `b`. -/
theorem C73_raw_string :
    let v : Resp := .string (str "a)gql\")); entry = response::Value(std::string(R\"gql(b") false
    ∀ (p : Double → Str) (level : Nat), (∃ ss, ReadsBody (defaultText p level v) ss) ∧
      ∀ ss, ReadsBody (defaultText p level v) ss → ∀ (L : Library) (E : Scope), (E (str "entry")).isSome →
        execs L ss E = .ok (none, E.set (str "entry") (.value (.string (str "b") false))) := by
  intro v p level
  have h : ReadsBody (defaultText p level v)
      (defaultS (numberE p) (.string (str "a") false) ++ defaultS (numberE p) (.string (str "b") false)) := by
    simp only [defaultText, v]
    have := closed_padding level _ _ (lexAll_ok (n := 1000) (s := str "\t\tentry = response::Value(std::string(R\"gql(" ++
      str "a)gql\")); entry = response::Value(std::string(R\"gql(b" ++ str ")gql\"));\n")
      (a := Stmt.listTokens (two (str "a") (str "b"))) (by decide +kernel))
    have e : defaultS (numberE p) (.string (str "a") false) ++ defaultS (numberE p) (.string (str "b") false) =
        two (str "a") (str "b") := by simp only [defaultS]; rfl
    rw [e]
    simpa only [ReadsBody, List.append_assoc, List.nil_append] using this
  refine ⟨⟨_, h⟩, fun ss hs L E hE => ?_⟩
  rw [hs.unique h]
  obtain ⟨x, hx⟩ := Option.isSome_iff_exists.1 hE
  have h1 := does_default p L (.string (str "a") false) (by
    simp only [DefaultOk]; exact ⟨trivial, closeB_ok (by decide +kernel), by decide +kernel⟩) hx
  have h2 := does_default p L (.string (str "b") false) (by
    simp only [DefaultOk]; exact ⟨trivial, closeB_ok (by decide +kernel), by decide +kernel⟩)
    (E := E.set (str "entry") (.value (.string (str "a") false))) (set_same _ _ _)
  have := h1.then h2
  rw [set_set] at this
  exact this

/-- **Finding.** A string is cut at the first zero (`\u0000` in the document). -/
theorem C73_zero :
    let v : Resp := .string (str "a" ++ [0] ++ str "b") false
    ∀ (p : Double → Str) (level : Nat), (∃ ss, ReadsBody (defaultText p level v) ss) ∧
      ∀ ss, ReadsBody (defaultText p level v) ss → ∀ (L : Library) (E : Scope), (E (str "entry")).isSome →
        execs L ss E = .ok (none, E.set (str "entry") (.value (.string (str "a") false))) := by
  intro v p level
  have h : ReadsBody (defaultText p level v) (defaultS (numberE p) v) := by
    simp only [defaultText, v]
    have := closed_padding level _ _ (lexAll_ok (n := 1000) (s := str "\t\tentry = response::Value(std::string(R\"gql(" ++
      (str "a" ++ [0] ++ str "b") ++ str ")gql\"));\n")
      (a := Stmt.listTokens (one (str "a" ++ [0] ++ str "b"))) (by decide +kernel))
    have e : defaultS (numberE p) (.string (str "a" ++ [0] ++ str "b") false) = one (str "a" ++ [0] ++ str "b") := by
      simp only [defaultS]; rfl
    rw [e]
    simpa only [ReadsBody, List.append_assoc, List.nil_append] using this
  refine ⟨⟨_, h⟩, fun ss hs L E hE => ?_⟩
  rw [hs.unique h]
  obtain ⟨x, hx⟩ := Option.isSome_iff_exists.1 hE
  have e1 : path "std" ["string"] ≠ path "std" ["move"] := by decide
  have e2 : path "response" ["Value"] ≠ path "std" ["move"] := by decide
  have e3 : path "std" ["string"] ≠ path "response" ["Value"] := by decide
  have e4 : cString (str "a" ++ [0] ++ str "b") = str "a" := by decide
  refine Does.of_eq (does_assign hx (e := .call valueT [.call (path "std" ["string"]) [.text (str "a" ++ [0] ++ str "b")]])
    (v := .string (str "a") false) ?_) (by simp [defaultS, v])
  generalize str "a" ++ [0] ++ str "b" = w at e4
  simp [eval, evalList, e1, e2, e3, Out.bind, Out.map, construct, Out.ofOption, e4, valueT]

/-- The value of a float which is written with other digits. -/
theorem float_value {p : Double → Str} {d d' : Double} (level : Nat)
    (h1 : Cpp.token ((sign (p d)).2 ++ str ")") = some (.number (sign (p d)).2, str ")"))
    (h2 : (numberValue r (sign (p d)).1 (sign (p d)).2).bind (castTo (path "response" ["FloatType"])) = some (.double d')) :
    (∃ ss, ReadsBody (defaultText p level (.float d)) ss) ∧
    ∀ ss, ReadsBody (defaultText p level (.float d)) ss → ∀ (L : Library) (E : Scope), L.read = r → (E (str "entry")).isSome →
      execs L ss E = .ok (none, E.set (str "entry") (.value (.float d'))) := by
  have e : defaultText p level (.float d) = defaultText (fun _ => p d) level (.float d') := by simp only [defaultText]
  have h : DefaultOk (fun _ => p d) r (.float d') := by simp only [DefaultOk]; exact ⟨h1, h2⟩
  rw [e]
  exact ⟨⟨_, reads_default h level⟩, fun ss hs L E hL hE => C73_default h level hs L hL E hE⟩

/-- **Finding.** `operator<<` writes six digits: the default `1.234567` becomes `1.23457`. -/
theorem C73_six_digits (p : Double → Str) (hp : p (.finite (1234567 / 1000000)) = str "1.23457") (level : Nat) :
    (∃ ss, ReadsBody (defaultText p level (.float (.finite (1234567 / 1000000)))) ss) ∧
    ∀ ss, ReadsBody (defaultText p level (.float (.finite (1234567 / 1000000)))) ss → ∀ (L : Library) (E : Scope),
      L.read = read → (E (str "entry")).isSome →
      execs L ss E = .ok (none, E.set (str "entry") (.value (.float (.finite (123457 / 100000))))) :=
  float_value level (by rw [hp]; decide +kernel) (by rw [hp]; exact isDouble_ok (by decide +kernel))

/-- **Finding.** The default `-0.0` is written as `-0`, which is an integer: it becomes `0.0`. -/
theorem C73_minus_zero (p : Double → Str) (hp : p .negZero = str "-0") (level : Nat) :
    (∃ ss, ReadsBody (defaultText p level (.float .negZero)) ss) ∧
    ∀ ss, ReadsBody (defaultText p level (.float .negZero)) ss → ∀ (L : Library) (E : Scope),
      L.read = read → (E (str "entry")).isSome →
      execs L ss E = .ok (none, E.set (str "entry") (.value (.float (.finite 0)))) :=
  float_value level (by rw [hp]; decide +kernel) (by rw [hp]; exact isDouble_ok (by decide +kernel))

/-- Two arguments which differ in the case of their first letter. -/
def clash : List InputField :=
  [{ type := str "Int", name := str "foo", modifiers := [.nullable] }, { type := str "Int", name := str "Foo", modifiers := [.nullable] }]

/-- **Finding.** The variables for the arguments `foo` and `Foo` have the same name, so that the code does not compile. -/
theorem C73_clash (p : Double → Str) :
    (∃ ss, ReadsBody (argumentsText p (str "ns") clash) ss) ∧
    ∀ ss, ReadsBody (argumentsText p (str "ns") clash) ss → ∀ L : Library,
      execs L ss (Scope.empty.set (str "params") (.params (.map []))) = .stuck ∧
      resolverArguments T depth clash [] = .ok [(str "foo", .none), (str "Foo", .none)] := by
  have h : ReadsBody (argumentsText p (str "ns") clash) (argumentsS (numberE p) (word (str "ns")) clash) := by
    have e : argumentsText p (str "ns") clash = argumentsText (fun _ => []) (str "ns") clash := by rfl
    have e' : argumentsS (numberE p) (word (str "ns")) clash = argumentsS (numberE fun _ => []) (word (str "ns")) clash := by rfl
    rw [e, e']
    exact lexAll_ok (n := 1000) (by decide +kernel)
  refine ⟨⟨_, h⟩, fun ss hs L => ⟨?_, ?_⟩⟩
  · rw [hs.unique h]
    rfl
  · rfl

end Verif.GenCode
