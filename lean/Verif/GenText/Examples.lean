import Verif.GenText.Claims
import Mathlib.Data.List.Infix

/-!
# C71: an example, and what goes wrong for other names and texts
-/
namespace Verif.GenText
open Verif.Value Verif.Gen Verif.Text Verif.Cpp Verif.Modifiers
open Verif.TypeSystem (Op Built)
open Verif.Schema.Wrap (Kind Addr)

/-! ## Checking -/

theorem noClose_of {close s : Str} (h : (s.tails.any fun t => close.isPrefixOf t) = false) : NoClose close s := by
  intro a b e
  have : (s.tails.any fun t => close.isPrefixOf t) = true := by
    rw [List.any_eq_true]
    refine ⟨close ++ b, ?_, ?_⟩
    · rw [List.mem_tails, e, List.append_assoc]; exact List.suffix_append _ _
    · simp
  rw [h] at this
  cases this

def nameB : Str → Bool
  | [] => false
  | c :: cs => nameStart c && cs.all nameCont

theorem nameB_ok {n : Str} (h : nameB n = true) : IsName n := by
  cases n with
  | nil => cases h
  | cons c cs =>
    simp only [nameB, Bool.and_eq_true, List.all_eq_true] at h
    exact ⟨c, cs, rfl, h.1, h.2⟩

def closeB (close s : Str) : Bool := !(s.tails.any fun t => close.isPrefixOf t)

theorem closeB_ok {close s : Str} (h : closeB close s = true) : NoClose close s := noClose_of (by simpa [closeB] using h)

def inputB (f : InputField) : Bool :=
  nameB f.name && nameB f.type && closeB (str ")md\"") f.description && closeB (str ")gql\"") f.defaultValueString

theorem inputB_ok {f : InputField} (h : inputB f = true) : InputOk f := by
  simp only [inputB, Bool.and_eq_true] at h
  exact ⟨nameB_ok h.1.1.1, nameB_ok h.1.1.2, closeB_ok h.1.2, closeB_ok h.2⟩

def optionB (r : Option Str) : Bool := r.all (closeB (str ")md\""))

theorem optionB_ok {r : Option Str} (h : optionB r = true) : ∀ s, r = some s → MdOk s := by
  rintro s rfl
  exact closeB_ok h

def fieldB (f : OutputField) : Bool :=
  nameB f.name && nameB f.type && closeB (str ")md\"") f.description && optionB f.deprecationReason && f.arguments.all inputB

theorem fieldB_ok {f : OutputField} (h : fieldB f = true) : FieldOk f := by
  simp only [fieldB, Bool.and_eq_true, List.all_eq_true] at h
  exact ⟨nameB_ok h.1.1.1.1, nameB_ok h.1.1.1.2, closeB_ok h.1.1.2, optionB_ok h.1.2, fun a ha => inputB_ok (h.2 a ha)⟩

def valueB (v : EnumValueType) : Bool :=
  nameB v.value && decide (v.value ∉ keywords) && decide (cpp v.value = v.value) && closeB (str ")md\"") v.description &&
  optionB v.deprecationReason

theorem valueB_ok {v : EnumValueType} (h : valueB v = true) : EnumValueOk v := by
  simp only [valueB, Bool.and_eq_true, decide_eq_true_eq] at h
  exact ⟨nameB_ok h.1.1.1.1, h.1.1.1.2, h.1.1.2, closeB_ok h.1.2, optionB_ok h.2⟩

def writableB (l : Loader) : Bool :=
  (l.scalarTypes.all fun t => nameB t.type && closeB (str ")md\"") t.description) &&
  (l.enumTypes.all fun t => closeB (str ")md\"") t.description && decide (cpp t.type ∉ keywords) &&
    decide (t.values.map (·.value)).Nodup && t.values.all valueB) &&
  (l.inputTypes.all fun t => closeB (str ")md\"") t.description && t.fields.all inputB) &&
  (l.unionTypes.all fun t => closeB (str ")md\"") t.description && t.options.all nameB) &&
  (l.interfaceTypes.all fun t => closeB (str ")md\"") t.description && t.fields.all fieldB) &&
  (l.objectTypes.all fun t => closeB (str ")md\"") t.description && t.fields.all fieldB &&
    decide (∀ n ∈ t.interfaces, n ∈ l.interfaceTypes.map (·.type))) &&
  (l.directives.all fun d => nameB d.name && closeB (str ")md\"") d.description && d.arguments.all inputB &&
    decide (∀ n ∈ d.locations, n ∈ locationNames.map (·.1))) &&
  (l.operationTypes.all fun o => decide (o.operation = str "query" ∨ o.operation = str "mutation" ∨
    o.operation = str "subscription") && decide (o.type ∈ l.objectTypes.map (·.type))) &&
  ((variableTypes l).all fun n => nameB n && decide (str "type" ++ cpp n ∉ keywords)) &&
  decide ((variableTypes l).map cpp).Nodup

theorem writableB_ok {l : Loader} (h : writableB l = true) : Writable l := by
  simp only [writableB, Bool.and_eq_true, List.all_eq_true, decide_eq_true_eq] at h
  obtain ⟨⟨⟨⟨⟨⟨⟨⟨⟨h1, h2⟩, h3⟩, h4⟩, h5⟩, h6⟩, h7⟩, h8⟩, h9⟩, h10⟩ := h
  exact
    { scalars := fun t ht => ⟨nameB_ok (h1 t ht).1, closeB_ok (h1 t ht).2⟩
      enums := fun t ht => ⟨closeB_ok (h2 t ht).1.1.1, (h2 t ht).1.1.2, (h2 t ht).1.2, fun v hv => valueB_ok ((h2 t ht).2 v hv)⟩
      inputs := fun t ht => ⟨closeB_ok (h3 t ht).1, fun f hf => inputB_ok ((h3 t ht).2 f hf)⟩
      unions := fun t ht => ⟨closeB_ok (h4 t ht).1, fun f hf => nameB_ok ((h4 t ht).2 f hf)⟩
      interfaces := fun t ht => ⟨closeB_ok (h5 t ht).1, fun f hf => fieldB_ok ((h5 t ht).2 f hf)⟩
      objects := fun t ht => ⟨closeB_ok (h6 t ht).1.1, fun f hf => fieldB_ok ((h6 t ht).1.2 f hf), (h6 t ht).2⟩
      directives := fun d hd => ⟨nameB_ok (h7 d hd).1.1.1, closeB_ok (h7 d hd).1.1.2, fun f hf => inputB_ok ((h7 d hd).1.2 f hf), (h7 d hd).2⟩
      operations := h8
      names := fun n hn => nameB_ok (h9 n hn).1
      words := fun n hn => (h9 n hn).2
      distinct := h10 }

/-! ## An example -/

namespace Demo

def field (name type : String) (mods : List Mod) (args : List InputField := []) (reason : Option String := none) : OutputField :=
  { type := str type, modifiers := mods, name := str name, arguments := args, description := str "a \"field\" (of) text",
    deprecationReason := reason.map str }

def input (name type : String) (mods : List Mod) (value : String) : InputField :=
  { type := str type, modifiers := mods, name := str name, defaultValueString := str value }

def loader : Loader :=
  { scalarTypes := [{ type := str "Date", description := str "a day" }]
    enumTypes := [{ type := str "Color", values := [{ value := str "RED", deprecationReason := some (str "too (loud)") }, { value := str "blue" }] }]
    inputTypes := [{ type := str "Point", fields := [input "x" "Int" [] "1", input "colors" "Color" [.nullable, .list, .nullable] "[RED]"] }]
    unionTypes := [{ type := str "Any", options := [str "Query", str "Thing"] }]
    interfaceTypes := [{ type := str "Node", fields := [field "id" "ID" []] }]
    objectTypes :=
      [{ type := str "Query"
         fields := [field "node" "Node" [.nullable] [input "id" "ID" [] "", input "at" "Point" [.nullable] "{ x: 2 }"],
           field "colors" "Color" [.list, .nullable] [] (some "old")] },
       { type := str "Thing", interfaces := [str "Node"], fields := [field "id" "ID" [], field "any" "Any" [.nullable, .list]] }]
    directives := [{ name := str "tag", locations := [str "FIELD", str "QUERY"], arguments := [input "name" "String" [.nullable] ""] },
      { name := str "none" }]
    operationTypes := [{ type := str "Query", operation := str "query" }] }

def options (separate noIntrospection : Bool) : Options :=
  { separateFiles := separate, noIntrospection := noIntrospection, schemaNamespace := str "my::schema" }

theorem namespace_ok (a b : Bool) : IsNamespace (options a b).schemaNamespace ⟨str "my", [str "schema"]⟩ := by
  refine ⟨rfl, ?_⟩
  intro s hs
  have : s = str "my" ∨ s = str "schema" := by simpa using hs
  rcases this with rfl | rfl
  · exact ⟨nameB_ok (by decide), by decide +kernel⟩
  · exact ⟨nameB_ok (by decide), by decide +kernel⟩

theorem writable (a b : Bool) : Writable (shown (options a b) loader) := by
  cases a <;> cases b <;> exact writableB_ok (by decide +kernel)

/-- The hypotheses of `C71_code` are met in all four modes; here the construction also succeeds. -/
example (a b : Bool) : ∃ c, Means ⟨str "my", [str "schema"]⟩ (program (options a b) loader) c ∧
    ∀ alloc st, Built st.ops st.schema → c alloc st = addTypes (shown (options a b) loader) alloc st :=
  C71_code (namespace_ok a b) (writable a b)

def succeeded : Except Crash TypeSystem.Schema → Bool
  | .ok _ => true
  | .error _ => false

example : succeeded (buildSchema (fun ops => ops.length) loader) = true := by decide +kernel

/-- The options with which the introspection schema is written. -/
def introspection : Options := { isIntrospection := true, schemaNamespace := str "introspection" }

/-- **C71.** The code of the introspection schema adds the introspection types. -/
theorem C71_introspection : ∃ b, Means ⟨str "introspection", []⟩ (program introspection { Introspect.types with scalarTypes := [] }) b ∧
    ∀ alloc st, Built st.ops st.schema → b alloc st = addTypes Introspect.types alloc st := by
  have e : shown introspection { Introspect.types with scalarTypes := [] } = Introspect.types := rfl
  have := C71_code (o := introspection) (ns := ⟨str "introspection", []⟩) (l := { Introspect.types with scalarTypes := [] }) ?_
    (writableB_ok (by decide +kernel))
  · rw [e] at this
    exact this
  · refine ⟨by decide, ?_⟩
    intro s hs
    have : s = str "introspection" := by simpa using hs
    rw [this]
    exact ⟨nameB_ok (by decide), by decide +kernel⟩

end Demo

/-! ## Code which a compiler cannot read -/

/-- There is something which is not a token. -/
def stuck : Nat → Str → Bool
  | 0, _ => false
  | n + 1, s =>
    match s with
    | [] => false
    | c :: s =>
      if isSpace c then stuck n s
      else
        match token (c :: s) with
        | some (_, r) => stuck n r
        | none => true

theorem not_stuck {s : Str} {a : List Tok} (h : Lexes s a) (n : Nat) : stuck n s = false := by
  induction n generalizing s a with
  | zero => rfl
  | succ n ih =>
    cases h with
    | done => rfl
    | @space c s toks hc h => simp only [stuck, hc, if_true]; exact ih h
    | @token s t r toks ht h =>
      cases s with
      | nil => rfl
      | cons c s =>
        have hc : isSpace c = false := by
          cases hs : isSpace c with
          | false => rfl
          | true => rw [token_space s hs] at ht; cases ht
        simp only [stuck, hc, Bool.false_eq_true, if_false, ht]
        exact ih h

/-- All the tokens. -/
def lexAll : Nat → Str → Option (List Tok)
  | 0, _ => none
  | n + 1, s =>
    match s with
    | [] => some []
    | c :: s =>
      if isSpace c then lexAll n s
      else
        match token (c :: s) with
        | some (t, r) => (lexAll n r).map (t :: ·)
        | none => none

theorem lexAll_ok {n : Nat} {s : Str} {a : List Tok} (h : lexAll n s = some a) : Lexes s a := by
  induction n generalizing s a with
  | zero => cases h
  | succ n ih =>
    cases s with
    | nil => cases h; exact .done
    | cons c s =>
      simp only [lexAll] at h
      split at h
      · rename_i hc; exact .space hc (ih h)
      · cases ht : token (c :: s) with
        | none => rw [ht] at h; cases h
        | some r =>
          rw [ht] at h
          simp only [Option.map_eq_some_iff] at h
          obtain ⟨b, hb, rfl⟩ := h
          exact .token ht (ih hb)

/-- The words of the language which are used. -/
def used : Tok → Bool
  | .keyword s => (["auto", "enum", "class", "static", "const", "void", "static_cast"].map str).contains s
  | _ => true

theorem used_path (q : Path) : ∀ t ∈ q.tokens, used t = true := by
  intro t ht
  simp only [Path.tokens, List.mem_cons, List.mem_flatMap, List.not_mem_nil, or_false] at ht
  rcases ht with rfl | ⟨s, -, rfl | rfl⟩ <;> rfl

theorem used_append {a b : List Tok} (ha : ∀ t ∈ a, used t = true) (hb : ∀ t ∈ b, used t = true) : ∀ t ∈ a ++ b, used t = true := by
  intro t ht
  rcases List.mem_append.1 ht with h | h
  · exact ha t h
  · exact hb t h

theorem used_lit {a : List Tok} (h : a.all used = true) : ∀ t ∈ a, used t = true := List.all_eq_true.1 h

mutual
theorem used_expr : ∀ (e : Expr), ∀ t ∈ e.tokens, used t = true
  | .name q => by simpa only [Expr.tokens] using used_path q
  | .text s v => by simp only [Expr.tokens]; exact used_lit rfl
  | .call f args => by
    simp only [Expr.tokens]
    exact used_append (used_append (used_append (used_path f) (used_lit (by decide))) (used_list args)) (used_lit (by decide))
  | .method x m args => by
    simp only [Expr.tokens]
    exact used_append (used_append (used_lit rfl) (used_list args)) (used_lit (by decide))
  | .index a i => by
    simp only [Expr.tokens]
    exact used_append (used_append (used_append (used_path a) (used_lit (by decide))) (used_expr i)) (used_lit (by decide))
  | .staticCast q e => by
    simp only [Expr.tokens]
    exact used_append (used_append (used_append (used_append (used_lit (by decide)) (used_path q)) (used_lit (by decide))) (used_expr e))
      (used_lit (by decide))
  | .pointerCast q e => by
    simp only [Expr.tokens]
    exact used_append (used_append (used_append (used_append (used_append (used_path _) (used_lit (by decide))) (used_path q))
      (used_lit (by decide))) (used_expr e)) (used_lit (by decide))
  | .braces es => by
    simp only [Expr.tokens]
    exact used_append (used_append (used_lit (by decide)) (used_list es)) (used_lit (by decide))
theorem used_list : ∀ (es : List Expr), ∀ t ∈ Expr.listTokens es, used t = true
  | [] => by simp [Expr.listTokens]
  | e :: es => by simp only [Expr.listTokens]; exact used_append (used_expr e) (used_more es)
theorem used_more : ∀ (es : List Expr), ∀ t ∈ Expr.moreTokens es, used t = true
  | [] => by simp [Expr.moreTokens]
  | e :: es => by
    simp only [Expr.moreTokens]
    exact used_append (used_append (used_lit (by decide)) (used_expr e)) (used_more es)
end

theorem used_stmt (s : Cpp.Stmt) : ∀ t ∈ s.tokens, used t = true := by
  cases s with
  | expr e => exact used_append (used_expr e) (used_lit (by decide))
  | auto x e => exact used_append (used_append (used_lit rfl) (used_expr e)) (used_lit (by decide))

theorem used_commas {xs : List (List Tok)} (h : ∀ x ∈ xs, ∀ t ∈ x, used t = true) : ∀ t ∈ commaTokens xs, used t = true := by
  induction xs with
  | nil => simp [commaTokens]
  | cons x xs ih =>
    cases xs with
    | nil => exact h x (by simp)
    | cons y ys =>
      exact used_append (h x (by simp)) (used_append (a := [p ","]) (used_lit (by decide)) (ih fun z hz => h z (by simp [hz])))

theorem used_param (q : Param) : ∀ t ∈ q.tokens, used t = true := by
  unfold Param.tokens
  refine used_append (used_append (used_append (used_append (used_append (used_append ?_ (used_path _)) (used_lit (by decide)))
    (used_path _)) (used_lit (by decide))) ?_) (used_lit rfl)
  · split <;> exact used_lit (by decide)
  · split <;> exact used_lit (by decide)

theorem used_decl (d : Decl) : ∀ t ∈ d.tokens, used t = true := by
  cases d with
  | enumClass n vs =>
    refine used_append (used_append (used_lit rfl) (used_commas ?_)) (used_lit (by decide))
    intro x hx
    obtain ⟨v, -, rfl⟩ := List.mem_map.1 hx
    exact used_lit rfl
  | array n a vs =>
    refine used_append (used_append (used_append (used_append (used_append (used_append (used_lit (by decide)) (used_path _))
      (used_lit (by decide))) (used_path _)) (used_lit rfl)) (used_commas ?_)) (used_lit (by decide))
    intro x hx
    obtain ⟨v, -, rfl⟩ := List.mem_map.1 hx
    exact used_lit rfl
  | function n ps b =>
    refine used_append (used_append (used_append (used_append (used_lit rfl) (used_commas ?_)) (used_lit (by decide))) ?_)
      (used_lit (by decide))
    · intro x hx
      obtain ⟨v, -, rfl⟩ := List.mem_map.1 hx
      exact used_param v
    · intro t ht
      obtain ⟨s, -, hs⟩ := List.mem_flatMap.1 ht
      exact used_stmt s t hs

/-- The text has a word of the language which cannot be where it is. -/
theorem unreadable {n : Nat} {text : Str} (h : (match lexAll n text with | some a => !a.all used | none => false) = true)
    (ds : List Decl) : ¬ Reads text ds := by
  intro hr
  cases hl : lexAll n text with
  | none => rw [hl] at h; cases h
  | some a =>
    rw [hl] at h
    have := (lexAll_ok hl).unique hr
    subst this
    simp only [Bool.not_eq_true', List.all_eq_false] at h
    obtain ⟨t, ht, hu⟩ := h
    obtain ⟨d, -, hd⟩ := List.mem_flatMap.1 ht
    exact hu (used_decl d t hd)

/-! ## Findings -/

namespace Demo

def one : Options := { schemaNamespace := str "my" }
def object (n : String) : Loader := { objectTypes := [{ type := str n, fields := [field "x" "Int" []] }] }
def enum (n : String) (vs : List String) : Loader := { enumTypes := [{ type := str n, values := vs.map fun v => { value := str v } }] }

/-- The names for which the variable is a word of the language. -/
theorem C71_finding_words (n : Str) : str "type" ++ cpp n ∈ keywords ↔ cpp n ∈ ["def", "id", "name"].map str := by
  constructor
  · intro h
    have : ∀ k ∈ keywords, k.take 4 = str "type" → k.drop 4 ∈ ["def", "id", "name"].map str := by decide +kernel
    exact this _ h rfl
  · intro h
    have : ∀ k ∈ ["def", "id", "name"].map str, str "type" ++ k ∈ keywords := by decide +kernel
    exact this _ h

/-- A type which is called `name`: the variable would be `typename`, and the code cannot be compiled. -/
theorem C71_finding_name (ds : List Decl) : ¬ Reads (functionText one (object "name")) ds := unreadable (n := 300) (by decide +kernel) ds

/-- An enum with the value `new`: the code cannot be compiled. -/
theorem C71_finding_value (ds : List Decl) : ¬ Reads (enumClasses (enum "Age" ["old", "new"])) ds :=
  unreadable (n := 300) (by decide +kernel) ds

/-- The end of a raw string in a description: the code cannot be compiled. -/
theorem C71_finding_description (ds : List Decl) :
    ¬ Reads (functionText one { scalarTypes := [{ type := str "Date", description := str "use \"(md)md\" here" }] }) ds := by
  intro h
  exact absurd (not_stuck h 300) (by decide +kernel)

/-- The code can be read, and the declarations are accepted. -/
theorem means_of {l : Loader} {n : Nat} (h1 : lexAll n (enumClasses l) = some ((l.enumTypes.map enumDecl).flatMap Decl.tokens))
    (h2 : lexAll n (namesArrays l) = some ((l.enumTypes.map arrayDecl).flatMap Decl.tokens))
    (h3 : lexAll n (functionText one l) = some (typesFunction ⟨str "my", []⟩ false l).tokens) {b : Build Unit}
    (h : Means ⟨str "my", []⟩ (program one l) b) :
    b = runFunction (contextOf ⟨str "my", []⟩ (l.enumTypes.map enumDecl) (l.enumTypes.map arrayDecl) []) [schemaParam]
      (body ⟨str "my", []⟩ false l) [.schema] := by
  obtain ⟨r1, r2, r3, r4, -⟩ := h
  cases r1.unique (lexAll_ok h1)
  cases r2.unique (lexAll_ok h2)
  cases r3.unique (b := []) .done
  have h3' : Reads (functionText one l) [typesFunction ⟨str "my", []⟩ false l] := by
    have := lexAll_ok h3
    unfold Reads
    simpa using this
  cases r4.unique h3'
  rfl

/-- An enum with the value `_A`: the header has `_A`, and the code uses `A`, which is not declared. -/
theorem C71_finding_enum {b : Build Unit} (h : Means ⟨str "my", []⟩ (program one (enum "Age" ["_A"])) b) :
    b (fun ops => ops.length) {} = .error .undefined := by
  rw [means_of (n := 300) (by decide +kernel) (by decide +kernel) (by decide +kernel) h]
  rfl

/-- Two types with names which differ in the number of underscores: the same variable is declared twice. -/
theorem C71_finding_twice {b : Build Unit}
    (h : Means ⟨str "my", []⟩ (program one { inputTypes := [{ type := str "A_B" }, { type := str "A__B" }] }) b) :
    b (fun ops => ops.length) {} = .error .undefined := by
  rw [means_of (n := 300) (by decide +kernel) (by decide +kernel) (by decide +kernel) h]
  rfl

end Demo
end Verif.GenText
