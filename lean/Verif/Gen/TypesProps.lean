import Verif.Gen.Types
import Verif.Modifiers.Props

/-!
# C41: types in the generators
-/
namespace Verif.Gen
open Verif.Value Verif.Resp Verif.Errors Verif.Ast Verif.Modifiers Verif.TypeSystem
open Verif.Schema.Wrap (Kind Addr)

/-! ## Specification -/

/-- `!` is only written after a name or a list, as the grammar requires. -/
inductive Proper : TypeRef → Prop where
  | named {n} : Proper (.named n)
  | list {τ} : Proper τ → Proper (.list τ)
  | nonNullNamed {n} : Proper (.nonNull (.named n))
  | nonNullList {τ} : Proper τ → Proper (.nonNull (.list τ))

/-- Without the outermost `!`. -/
def bare : TypeRef → TypeRef
  | .nonNull τ => τ
  | τ => τ

/-- The type reference which modifiers (outermost first) and a name stand for: everything is non-null, except after
`nullable`. -/
def typeOf (name : Str) : List Mod → TypeRef
  | [] => .nonNull (.named name)
  | .list :: ms => .nonNull (.list (typeOf name ms))
  | .nullable :: ms => bare (typeOf name ms)

/-- The modifiers of a type reference. -/
inductive ModifiersOf : TypeRef → List Mod → Prop where
  | named {n} : ModifiersOf (.named n) [.nullable]
  | list {τ ms} : ModifiersOf τ ms → ModifiersOf (.list τ) (.nullable :: .list :: ms)
  | nonNullNamed {n} : ModifiersOf (.nonNull (.named n)) []
  | nonNullList {τ ms} : ModifiersOf τ ms → ModifiersOf (.nonNull (.list τ)) (.list :: ms)

/-- The C++ expression which makes a type of the introspection schema. -/
def expressionText : TypeRef → Str
  | .named n => str "schema->LookupType(\"" ++ n ++ str "\")"
  | .list τ => str "schema->WrapType(introspection::TypeKind::LIST, " ++ expressionText τ ++ str ")"
  | .nonNull τ => str "schema->WrapType(introspection::TypeKind::NON_NULL, " ++ expressionText τ ++ str ")"

/-- `CppType leaf nullableLeaf τ text`: `text` is the C++ type for values of `τ`, with `leaf` for a non-null value of the
named type and `nullableLeaf` for a nullable one. -/
inductive CppType (leaf nullableLeaf : Str) : TypeRef → Str → Prop where
  | named {n} : CppType leaf nullableLeaf (.named n) nullableLeaf
  | nonNullNamed {n} : CppType leaf nullableLeaf (.nonNull (.named n)) leaf
  | list {τ text} : CppType leaf nullableLeaf τ text →
      CppType leaf nullableLeaf (.list τ) (str "std::optional<std::vector<" ++ text ++ str ">>")
  | nonNullList {τ text} : CppType leaf nullableLeaf τ text →
      CppType leaf nullableLeaf (.nonNull (.list τ)) (str "std::vector<" ++ text ++ str ">")

/-- `a, b, c` -/
def separated (sep : Str) : List Str → Str
  | [] => []
  | [x] => x
  | x :: xs => x ++ sep ++ separated sep xs

/-- The values of a type reference, if `leaf` are the values of the named type. -/
inductive Conforms (leaf : Resp → Prop) : TypeRef → Resp → Prop where
  | null {n} : Conforms leaf (.named n) .null
  | named {n v} : leaf v → Conforms leaf (.named n) v
  | nullList {τ} : Conforms leaf (.list τ) .null
  | list {τ vs} : (∀ v ∈ vs, Conforms leaf τ v) → Conforms leaf (.list τ) (.list vs)
  | nonNull {τ v} : v ≠ .null → Conforms leaf τ v → Conforms leaf (.nonNull τ) v

/-! ## Type references and modifiers -/

theorem visit_eq {τ : TypeRef} (h : Proper τ) (v : TypeVisitor) (hv : v.nonNull = false) :
    (TypeVisitor.visit v τ).type = baseName τ ∧
    ∃ ms, ModifiersOf τ ms ∧ (TypeVisitor.visit v τ).modifiers = v.modifiers ++ ms := by
  induction h generalizing v with
  | named => exact ⟨rfl, _, .named, by simp [TypeVisitor.visit, hv]⟩
  | list _ ih =>
    obtain ⟨h1, ms, h2, h3⟩ := ih { v with nonNull := false, modifiers := v.modifiers ++ [.nullable] ++ [.list] } rfl
    refine ⟨?_, _, .list h2, ?_⟩
    · simpa [TypeVisitor.visit, hv, baseName] using h1
    · simpa [TypeVisitor.visit, hv] using h3
  | nonNullNamed => exact ⟨rfl, _, .nonNullNamed, by simp [TypeVisitor.visit]⟩
  | nonNullList _ ih =>
    obtain ⟨h1, ms, h2, h3⟩ := ih { v with nonNull := false, modifiers := v.modifiers ++ [.list] } rfl
    refine ⟨?_, _, .nonNullList h2, ?_⟩
    · simpa [TypeVisitor.visit, baseName] using h1
    · simpa [TypeVisitor.visit] using h3

theorem ModifiersOf.proper {τ : TypeRef} {ms : List Mod} (h : ModifiersOf τ ms) : Proper τ := by
  induction h with
  | named => exact .named
  | list _ ih => exact .list ih
  | nonNullNamed => exact .nonNullNamed
  | nonNullList _ ih => exact .nonNullList ih

theorem ModifiersOf.typeOf {τ : TypeRef} {ms : List Mod} (h : ModifiersOf τ ms) : typeOf (baseName τ) ms = τ := by
  induction h with
  | named => rfl
  | list _ ih => simp [Gen.typeOf, bare, baseName, ih]
  | nonNullNamed => rfl
  | nonNullList _ ih => simp [Gen.typeOf, baseName, ih]

theorem ModifiersOf.unique {τ : TypeRef} {ms ms' : List Mod} (h : ModifiersOf τ ms) (h' : ModifiersOf τ ms') : ms = ms' := by
  induction h generalizing ms' with
  | named => cases h'; rfl
  | list _ ih => cases h' with | list h' => rw [ih h']
  | nonNullNamed => cases h'; rfl
  | nonNullList _ ih => cases h' with | nonNullList h' => rw [ih h']

theorem getType_eq {τ : TypeRef} (h : Proper τ) : ∃ ms, ModifiersOf τ ms ∧ getType τ = (baseName τ, ms) := by
  obtain ⟨h1, ms, h2, h3⟩ := visit_eq h {} rfl
  exact ⟨ms, h2, by simp [getType, h1, h3]⟩

/-- **C41.** The name and the modifiers which the generators derive from a type reference are the ones of this type
reference: name and modifiers together stand for it. -/
theorem C41_modifiers {τ : TypeRef} (h : Proper τ) :
    ModifiersOf τ (getType τ).2 ∧ typeOf (getType τ).1 (getType τ).2 = τ := by
  obtain ⟨ms, h1, h2⟩ := getType_eq h
  rw [h2]
  exact ⟨h1, h1.typeOf⟩

/-- **C41.** Different type references have different names or modifiers. -/
theorem C41_injective {τ σ : TypeRef} (hτ : Proper τ) (hσ : Proper σ) (h : getType τ = getType σ) : τ = σ := by
  rw [← (C41_modifiers hτ).2, ← (C41_modifiers hσ).2, h]

/-! ## Introspection -/

theorem eval_wrap {s s₁ s₂ : Schema} {τ : TypeRef} {a b : Addr} (e : Eval s τ s₁ a) :
    (WrapType s₁ .list a s₂ b → Eval s (.list τ) s₂ b) ∧ (WrapType s₁ .nonNull a s₂ b → Eval s (.nonNull τ) s₂ b) := by
  constructor
  all_goals
    rintro ⟨f, hf, hw⟩
  · have := Eval.list e hf; rw [hw] at this; exact this
  · have := Eval.nonNull e hf; rw [hw] at this; exact this

theorem eval_list {s s₂ : Schema} {τ : TypeRef} {b : Addr} (e : Eval s (.list τ) s₂ b) :
    ∃ s₁ a, Eval s τ s₁ a ∧ WrapType s₁ .list a s₂ b := by
  generalize hσ : TypeRef.list τ = σ at e
  cases e with
  | named => cases hσ
  | nonNull => cases hσ
  | list e hf => cases hσ; exact ⟨_, _, e, _, hf, rfl⟩

theorem eval_nonNull {s s₂ : Schema} {τ : TypeRef} {b : Addr} (e : Eval s (.nonNull τ) s₂ b) :
    ∃ s₁ a, Eval s τ s₁ a ∧ WrapType s₁ .nonNull a s₂ b := by
  generalize hσ : TypeRef.nonNull τ = σ at e
  cases e with
  | named => cases hσ
  | list => cases hσ
  | nonNull e hf => cases hσ; exact ⟨_, _, e, _, hf, rfl⟩

/-- Whether modifiers stand for a non-null type. -/
def isNonNull : List Mod → Bool
  | .nullable :: _ => false
  | _ => true

theorem ModifiersOf.isNonNull {σ : TypeRef} {ms : List Mod} (h : ModifiersOf σ ms) :
    (isNonNull ms = true ∧ σ = .nonNull (bare σ)) ∨ (isNonNull ms = false ∧ σ = bare σ) := by
  cases h
  · exact .inr ⟨rfl, rfl⟩
  · exact .inr ⟨rfl, rfl⟩
  · exact .inl ⟨rfl, rfl⟩
  · exact .inl ⟨rfl, rfl⟩

theorem eval_bare {s s₂ : Schema} {σ : TypeRef} {ms : List Mod} (h : ModifiersOf σ ms) {b : Addr} :
    Eval s σ s₂ b ↔ (isNonNull ms = false ∧ Eval s (bare σ) s₂ b) ∨
      (isNonNull ms = true ∧ ∃ s₁ a, Eval s (bare σ) s₁ a ∧ WrapType s₁ .nonNull a s₂ b) := by
  rcases h.isNonNull with ⟨h1, h2⟩ | ⟨h1, h2⟩
  · rw [h1]
    generalize bare σ = ρ at h2
    subst h2
    simp only [reduceCtorEq, false_and, true_and, false_or]
    exact ⟨eval_nonNull, fun ⟨_, _, e, w⟩ => (eval_wrap e).2 w⟩
  · rw [h1]
    simp [← h2]

theorem loop_nullable {type : Str} {s s₁ : Schema} {ms : List Mod} {a : Addr} {b : Bool} :
    SchemaTypeLoop type s (.nullable :: ms) s₁ a b ↔ (∃ b', SchemaTypeLoop type s ms s₁ a b') ∧ b = false := by
  constructor
  · intro h; cases h with | nullable h => exact ⟨⟨_, h⟩, rfl⟩
  · rintro ⟨⟨_, h⟩, rfl⟩; exact .nullable h

theorem loop_list {s : Schema} {τ : TypeRef} {type : Str} {ms : List Mod} (h : ModifiersOf τ ms)
    (ih : ∀ {s₁ a b}, SchemaTypeLoop type s ms s₁ a b ↔ Eval s (bare τ) s₁ a ∧ b = isNonNull ms)
    {s₂ : Schema} {c : Addr} {b : Bool} :
    SchemaTypeLoop type s (.list :: ms) s₂ c b ↔ Eval s (.list τ) s₂ c ∧ b = true := by
  constructor
  · intro hl
    cases hl with
    | list hl w =>
      obtain ⟨e, hn⟩ := ih.1 hl
      exact ⟨(eval_wrap ((eval_bare h).2 (.inl ⟨hn.symm, e⟩))).1 w, rfl⟩
    | nonNullList hl w w' =>
      obtain ⟨e, hn⟩ := ih.1 hl
      exact ⟨(eval_wrap ((eval_bare h).2 (.inr ⟨hn.symm, _, _, e, w⟩))).1 w', rfl⟩
  · rintro ⟨e, rfl⟩
    obtain ⟨s₁, a, e, w⟩ := eval_list e
    rcases (eval_bare h).1 e with ⟨hn, e⟩ | ⟨hn, s₀, a₀, e, w₀⟩
    · exact .list (ih.2 ⟨e, hn.symm⟩) w
    · exact .nonNullList (ih.2 ⟨e, hn.symm⟩) w₀ w

theorem loop_nil {type : Str} {s s₁ : Schema} {a : Addr} {b : Bool} :
    SchemaTypeLoop type s [] s₁ a b ↔ Eval s (.named type) s₁ a ∧ b = true := by
  constructor
  · intro h; cases h with | start h => exact ⟨.named h, rfl⟩
  · rintro ⟨e, rfl⟩; cases e with | named h => exact .start h

theorem loop_iff {s : Schema} {σ : TypeRef} {ms : List Mod} (h : ModifiersOf σ ms) {s₁ : Schema} {a : Addr} {b : Bool} :
    SchemaTypeLoop (baseName σ) s ms s₁ a b ↔ Eval s (bare σ) s₁ a ∧ b = isNonNull ms := by
  induction h generalizing s₁ a b with
  | named =>
    rw [loop_nullable]
    simp only [loop_nil, isNonNull, bare, baseName]
    simp
  | list h ih =>
    rw [loop_nullable]
    simp only [baseName, loop_list h ih, isNonNull, bare]
    simp
  | nonNullNamed => exact loop_nil
  | nonNullList h ih => exact loop_list h ih

/-- **C41.** The type of the introspection schema which `clientgen` makes from name and modifiers of a type reference is
the value of the expression for this type reference: see C49. -/
theorem C41_schema_type {τ : TypeRef} (h : Proper τ) (s s' : Schema) (a : Addr) :
    GetSchemaType (getType τ).1 (getType τ).2 s s' a ↔ Eval s τ s' a := by
  obtain ⟨ms, h1, h2⟩ := getType_eq h
  rw [h2, eval_bare h1]
  constructor
  · intro hg
    cases hg with
    | nullable hl => obtain ⟨e, hn⟩ := (loop_iff h1).1 hl; exact .inl ⟨hn.symm, e⟩
    | nonNull hl w => obtain ⟨e, hn⟩ := (loop_iff h1).1 hl; exact .inr ⟨hn.symm, _, _, e, w⟩
  · rintro (⟨hn, e⟩ | ⟨hn, s₁, b, e, w⟩)
    · exact .nullable ((loop_iff h1).2 ⟨e, hn.symm⟩)
    · exact .nonNull ((loop_iff h1).2 ⟨e, hn.symm⟩) w

theorem ofType_lock {s : Schema} {t : BaseType} {b : Addr} (h : Introspection.getOfType s t = some b) :
    t.ofType = some b := by
  unfold Introspection.getOfType at h
  cases t with
  | wrapper k c =>
    cases k <;> simp_all [BaseType.kind, BaseType.ofType]
  | _ => simp_all [BaseType.kind]

/-- The type which a type reference names. -/
inductive Base (s : Schema) : Addr → TypeRef → Addr → Prop where
  | named {a n} : Reads s a (.named n) → Base s a (.named n) a
  | list {a t b τ c} : s.store a = some t → t.kind = .list → t.ofType = some b → Base s b τ c → Base s a (.list τ) c
  | nonNull {a t b τ c} : s.store a = some t → t.kind = .nonNull → t.ofType = some b → Base s b τ c →
      Base s a (.nonNull τ) c

theorem Base.reads {s : Schema} {a b : Addr} {τ : TypeRef} (h : Base s a τ b) : Reads s b (.named (baseName τ)) := by
  induction h with
  | named h => exact h
  | list _ _ _ _ ih => exact ih
  | nonNull _ _ _ _ ih => exact ih

theorem reads_base {s : Schema} {a : Addr} {τ : TypeRef} (h : Reads s a τ) : ∃ b, Base s a τ b := by
  induction h with
  | named h1 h2 h3 h4 => exact ⟨_, .named (.named h1 h2 h3 h4)⟩
  | list h1 h2 h3 h4 _ ih => obtain ⟨b, hb⟩ := ih; exact ⟨b, .list h1 h2 (ofType_lock h4) hb⟩
  | nonNull h1 h2 h3 h4 _ ih => obtain ⟨b, hb⟩ := ih; exact ⟨b, .nonNull h1 h2 (ofType_lock h4) hb⟩

theorem unwrap_named {s : Schema} {a c : Addr} {n : Str} {nn : Bool} {ms : List Mod} (h : Reads s a (.named n)) :
    UnwrapLoop s a nn c ms ↔ c = a ∧ ms = (if nn then [] else [.nullable]) := by
  obtain ⟨t, ht, hk⟩ : ∃ t, s.store a = some t ∧ isNamed t.kind = true := by
    cases h with | named h1 h2 h3 h4 => exact ⟨_, h1, h2⟩
  constructor
  · intro hu
    cases hu with
    | nonNull h1 h2 _ _ => rw [ht] at h1; cases h1; rw [h2] at hk; cases hk
    | list h1 h2 _ _ => rw [ht] at h1; cases h1; rw [h2] at hk; cases hk
    | other => exact ⟨rfl, rfl⟩
  · rintro ⟨rfl, rfl⟩
    refine .other ht ?_ ?_ <;> intro e <;> rw [e] at hk <;> cases hk

theorem unwrap_list {s : Schema} {a b c : Addr} {t : BaseType} {nn : Bool} {ms : List Mod} (h1 : s.store a = some t)
    (h2 : t.kind = .list) (h3 : t.ofType = some b) :
    UnwrapLoop s a nn c ms ↔ ∃ ms', UnwrapLoop s b false c ms' ∧
      ms = (if nn then [] else [.nullable]) ++ .list :: ms' := by
  constructor
  · intro hu
    cases hu with
    | nonNull k1 k2 _ _ => rw [h1] at k1; cases k1; rw [h2] at k2; cases k2
    | list k1 k2 k3 k4 => rw [h1] at k1; cases k1; rw [h3] at k3; cases k3; exact ⟨_, k4, rfl⟩
    | other k1 k2 k3 => rw [h1] at k1; cases k1; exact absurd h2 k3
  · rintro ⟨ms', h4, rfl⟩
    exact .list h1 h2 h3 h4

theorem unwrap_nonNull {s : Schema} {a b c : Addr} {t : BaseType} {nn : Bool} {ms : List Mod} (h1 : s.store a = some t)
    (h2 : t.kind = .nonNull) (h3 : t.ofType = some b) : UnwrapLoop s a nn c ms ↔ UnwrapLoop s b true c ms := by
  constructor
  · intro hu
    cases hu with
    | nonNull k1 k2 k3 k4 => rw [h1] at k1; cases k1; rw [h3] at k3; cases k3; exact k4
    | list k1 k2 _ _ => rw [h1] at k1; cases k1; rw [h2] at k2; cases k2
    | other k1 k2 k3 => rw [h1] at k1; cases k1; exact absurd h2 k2
  · exact .nonNull h1 h2 h3

theorem unwrap_iff {s : Schema} {τ : TypeRef} {mods : List Mod} (hm : ModifiersOf τ mods) {a b : Addr} (h : Base s a τ b)
    {c : Addr} {ms : List Mod} : UnwrapLoop s a false c ms ↔ c = b ∧ ms = mods := by
  induction hm generalizing a c ms with
  | named => cases h with | named h => exact unwrap_named h
  | list _ ih =>
    cases h with
    | list h1 h2 h3 h4 =>
      rw [unwrap_list h1 h2 h3]
      constructor
      · rintro ⟨ms', hu, rfl⟩; obtain ⟨rfl, rfl⟩ := (ih h4).1 hu; exact ⟨rfl, rfl⟩
      · rintro ⟨rfl, rfl⟩; exact ⟨_, (ih h4).2 ⟨rfl, rfl⟩, rfl⟩
  | nonNullNamed =>
    cases h with
    | nonNull h1 h2 h3 h4 =>
      rw [unwrap_nonNull h1 h2 h3]
      cases h4 with | named h => exact unwrap_named h
  | nonNullList _ ih =>
    cases h with
    | nonNull h1 h2 h3 h4 =>
      rw [unwrap_nonNull h1 h2 h3]
      cases h4 with
      | list h1 h2 h3 h4 =>
        rw [unwrap_list h1 h2 h3]
        constructor
        · rintro ⟨ms', hu, rfl⟩; obtain ⟨rfl, rfl⟩ := (ih h4).1 hu; exact ⟨rfl, rfl⟩
        · rintro ⟨rfl, rfl⟩; exact ⟨_, (ih h4).2 ⟨rfl, rfl⟩, rfl⟩

/-- **C41.** Taking apart a type of the introspection schema gives the type with the name in it and the modifiers of the
type reference which introspection reads. -/
theorem C41_unwrap {s : Schema} {a : Addr} {τ : TypeRef} (h : Reads s a τ) (hp : Proper τ) :
    ∃ b, Reads s b (.named (baseName τ)) ∧
      ∀ c ms, UnwrapSchemaType s a c ms ↔ c = b ∧ ms = (getType τ).2 := by
  obtain ⟨b, hb⟩ := reads_base h
  obtain ⟨ms, h1, h2⟩ := getType_eq hp
  refine ⟨b, hb.reads, fun c ms' => ?_⟩
  rw [h2]
  exact unwrap_iff h1 hb

/-! ## Generated text -/

theorem introspection_text {τ : TypeRef} {ms : List Mod} (h : ModifiersOf τ ms) (w : Writer) (hw : w.nonNull = true) :
    (let w := ms.foldl introspectionStep w
     let w := if w.nonNull then w.open (str "schema->WrapType(introspection::TypeKind::NON_NULL, ") else w
     w.text ++ str "schema->LookupType(\"" ++ baseName τ ++ str "\")" ++ closing (str ")") w.count) =
    w.text ++ expressionText τ ++ closing (str ")") w.count := by
  induction h generalizing w with
  | named => simp [introspectionStep, expressionText, baseName]
  | list _ ih =>
    have := ih ({ w with nonNull := true }.open (str "schema->WrapType(introspection::TypeKind::LIST, ")) rfl
    rw [List.foldl_cons, List.foldl_cons]
    rw [show introspectionStep (introspectionStep w .nullable) .list =
      { w with nonNull := true }.open (str "schema->WrapType(introspection::TypeKind::LIST, ") by simp [introspectionStep]]
    refine this.trans ?_
    simp [Writer.open, closing, expressionText]
  | nonNullNamed => simp [expressionText, baseName, Writer.open, closing, hw]
  | nonNullList _ ih =>
    have := ih ({ (w.open (str "schema->WrapType(introspection::TypeKind::NON_NULL, ")) with nonNull := true }.open
      (str "schema->WrapType(introspection::TypeKind::LIST, ")) rfl
    rw [List.foldl_cons]
    rw [show introspectionStep w .list =
      { (w.open (str "schema->WrapType(introspection::TypeKind::NON_NULL, ")) with nonNull := true }.open
        (str "schema->WrapType(introspection::TypeKind::LIST, ") by simp [introspectionStep, hw]]
    refine this.trans ?_
    simp [Writer.open, closing, expressionText]

/-- **C41.** The expression which `schemagen` writes for the type of a field, argument or input field is the one of its
type reference. -/
theorem C41_introspection_expression {τ : TypeRef} (h : Proper τ) :
    getIntrospectionType (getType τ).1 (getType τ).2 = expressionText τ := by
  obtain ⟨ms, h1, h2⟩ := getType_eq h
  have := introspection_text h1 {} rfl
  rw [h2]
  simpa [getIntrospectionType, closing] using this

theorem input_text {τ : TypeRef} {ms : List Mod} (h : ModifiersOf τ ms) (leaf : Str) (w : Writer) :
    ∃ text, CppType leaf (str "std::optional<" ++ leaf ++ str ">") τ text ∧
      (ms.foldl inputStep w).text ++ leaf ++ closing (str ">") (ms.foldl inputStep w).count =
        w.text ++ text ++ closing (str ">") w.count := by
  induction h generalizing w with
  | named => exact ⟨_, .named, by simp [inputStep, Writer.open, closing]⟩
  | list _ ih =>
    obtain ⟨text, h1, h2⟩ := ih ((w.open (str "std::optional<")).open (str "std::vector<"))
    refine ⟨_, .list h1, ?_⟩
    rw [List.foldl_cons, List.foldl_cons]
    refine h2.trans ?_
    simp [Writer.open, closing, str]
  | nonNullNamed => exact ⟨_, .nonNullNamed, by simp⟩
  | nonNullList _ ih =>
    obtain ⟨text, h1, h2⟩ := ih (w.open (str "std::vector<"))
    refine ⟨_, .nonNullList h1, ?_⟩
    rw [List.foldl_cons]
    refine h2.trans ?_
    simp [Writer.open, closing]

/-- **C41.** The C++ type of an input field or argument is the one of its type reference. -/
theorem C41_input_type {τ : TypeRef} (h : Proper τ) (leaf : Str) :
    CppType leaf (str "std::optional<" ++ leaf ++ str ">") τ (getInputCppType leaf (getType τ).2) := by
  obtain ⟨ms, h1, h2⟩ := getType_eq h
  obtain ⟨text, h3, h4⟩ := input_text h1 leaf {}
  rw [h2]
  have : getInputCppType leaf ms = text := by simpa [getInputCppType, closing] using h4
  rw [this]; exact h3

theorem output_text {τ : TypeRef} {ms : List Mod} (h : ModifiersOf τ ms) (composite : Bool) (leaf : Str) (w : Writer)
    (hw : w.nonNull = true) :
    ∃ text, CppType (if composite then str "std::shared_ptr<" ++ leaf ++ str ">" else leaf)
        (if composite then str "std::shared_ptr<" ++ leaf ++ str ">" else str "std::optional<" ++ leaf ++ str ">") τ text ∧
      (let w := ms.foldl outputStep w
       let w := if composite then w.open (str "std::shared_ptr<")
        else if w.nonNull then w else w.open (str "std::optional<")
       w.text ++ leaf ++ closing (str ">") w.count) = w.text ++ text ++ closing (str ">") w.count := by
  induction h generalizing w with
  | named => exact ⟨_, .named, by cases composite <;> simp [outputStep, Writer.open, closing, hw]⟩
  | list _ ih =>
    obtain ⟨text, h1, h2⟩ := ih ({ ((w.open (str "std::optional<"))) with nonNull := true }.open (str "std::vector<")) rfl
    refine ⟨_, .list h1, ?_⟩
    rw [List.foldl_cons, List.foldl_cons]
    have : outputStep (outputStep w .nullable) .list =
        { (w.open (str "std::optional<")) with nonNull := true }.open (str "std::vector<") := by
      simp [outputStep, Writer.open, hw]
    rw [this]
    refine h2.trans ?_
    simp [Writer.open, closing, str]
  | nonNullNamed => exact ⟨_, .nonNullNamed, by cases composite <;> simp [Writer.open, closing, hw]⟩
  | nonNullList _ ih =>
    obtain ⟨text, h1, h2⟩ := ih ({ w with nonNull := true }.open (str "std::vector<")) rfl
    refine ⟨_, .nonNullList h1, ?_⟩
    rw [List.foldl_cons]
    have : outputStep w .list = { w with nonNull := true }.open (str "std::vector<") := by
      simp [outputStep, Writer.open, hw]
    rw [this]
    refine h2.trans ?_
    simp [Writer.open, closing]

/-- **C41.** The C++ type of a field of a response is the one of its type reference. -/
theorem C41_output_type {τ : TypeRef} (h : Proper τ) (leaf : Str) :
    CppType leaf (str "std::optional<" ++ leaf ++ str ">") τ (getOutputCppType leaf (getType τ).2) := by
  obtain ⟨ms, h1, h2⟩ := getType_eq h
  obtain ⟨text, h3, h4⟩ := output_text h1 false leaf {} rfl
  rw [h2]
  have : getOutputCppType leaf ms = text := by simpa [getOutputCppType, closing] using h4
  rw [this]; exact h3

/-- **C41.** The C++ type which a resolver returns is the one of its type reference, where objects, interfaces and unions
are a `std::shared_ptr` whether or not they are nullable. -/
theorem C41_resolver_type {τ : TypeRef} (h : Proper τ) (leaf : Str) :
    CppType leaf (str "std::optional<" ++ leaf ++ str ">") τ (getResolverCppType false leaf (getType τ).2) ∧
    CppType (str "std::shared_ptr<" ++ leaf ++ str ">") (str "std::shared_ptr<" ++ leaf ++ str ">") τ
      (getResolverCppType true leaf (getType τ).2) := by
  obtain ⟨ms, h1, h2⟩ := getType_eq h
  rw [h2]
  constructor
  · obtain ⟨text, h3, h4⟩ := output_text h1 false leaf {} rfl
    have : getResolverCppType false leaf ms = text := by simpa [getResolverCppType, closing] using h4
    rw [this]; exact h3
  · obtain ⟨text, h3, h4⟩ := output_text h1 true leaf {} rfl
    have : getResolverCppType true leaf ms = text := by simpa [getResolverCppType, closing] using h4
    rw [this]; exact h3

/-- How a modifier is written. -/
def modifierText (scope : Str) : Mod → Str
  | .nullable => scope ++ str "TypeModifier::Nullable"
  | .list => scope ++ str "TypeModifier::List"

theorem modifiers_text (scope : Str) (m : Mod) (ms : List Mod) (text : Str) :
    ms.foldl (modifiersStep scope) (text ++ modifierText scope m, false) =
      (text ++ separated (str ", ") ((m :: ms).map (modifierText scope)), false) := by
  induction ms generalizing m text with
  | nil => simp [separated]
  | cons n ms ih =>
    rw [List.foldl_cons]
    have : modifiersStep scope (text ++ modifierText scope m, false) n =
        (text ++ modifierText scope m ++ str ", " ++ modifierText scope n, false) := by
      cases n <;> simp [modifiersStep, modifierText]
    rw [this, ih]
    simp [separated]

/-- **C41.** The modifiers are written as template arguments, in order. -/
theorem C41_template_arguments (scope : Str) (ms : List Mod) :
    getTypeModifiers scope ms =
      if ms = [] then [] else str "<" ++ separated (str ", ") (ms.map (modifierText scope)) ++ str ">" := by
  cases ms with
  | nil => rfl
  | cons m ms =>
    have : modifiersStep scope ([], true) m = (str "<" ++ modifierText scope m, false) := by
      cases m <;> simp [modifiersStep, modifierText]
    simp [getTypeModifiers, this, modifiers_text]

/-! ## Values -/

/-- **C41.** With the modifiers of a type reference, `ModifiedArgument` reads exactly the values of this type reference.
(For types of which null is no value; a custom scalar reads null for a `!` as well.) -/
theorem C41_values {α : Type} {τ : TypeRef} (h : Proper τ) (convert : Resp → Except Exn α)
    (hc : ∀ v a, convert v = .ok a → v ≠ .null) (v : Resp) :
    (∃ a, Fits (fun v a => convert v = .ok a) (getType τ).2 v a) ↔
      Conforms (fun v => ∃ a, convert v = .ok a) τ v := by
  obtain ⟨ms, h1, h2⟩ := getType_eq h
  rw [h2]
  clear h2 h
  simp only
  have list : ∀ {τ : TypeRef} {ms : List Mod},
      (∀ v, (∃ a, Fits (fun v a => convert v = .ok a) ms v a) ↔ Conforms (fun v => ∃ a, convert v = .ok a) τ v) →
      ∀ v, (∃ a, Fits (fun v a => convert v = .ok a) (.list :: ms) v a) ↔
        ∃ vs, v = .list vs ∧ ∀ v ∈ vs, Conforms (fun v => ∃ a, convert v = .ok a) τ v := by
    intro τ ms ih v
    constructor
    · rintro ⟨a, ha⟩
      obtain ⟨vs, as, rfl, rfl⟩ := fits_list_inv ha
      refine ⟨vs, rfl, ?_⟩
      have := fits_list.1 ha
      clear ha
      induction this with
      | nil => simp
      | cons h1 _ ih' =>
        intro v hv
        rcases List.mem_cons.1 hv with rfl | hv
        · exact (ih _).1 ⟨_, h1⟩
        · exact ih' v hv
    · rintro ⟨vs, rfl, hvs⟩
      have : ∃ as, Each (Fits (fun v a => convert v = .ok a) ms) vs as := by
        induction vs with
        | nil => exact ⟨[], .nil⟩
        | cons x xs ih' =>
          obtain ⟨a, ha⟩ := (ih x).2 (hvs x (by simp))
          obtain ⟨as, has⟩ := ih' fun v hv => hvs v (by simp [hv])
          exact ⟨a :: as, .cons ha has⟩
      obtain ⟨as, has⟩ := this
      exact ⟨.list as, fits_list.2 has⟩
  induction h1 generalizing v with
  | named =>
    constructor
    · rintro ⟨a, ha⟩
      cases ha with
      | null => exact .null
      | some _ h => cases h with | leaf h => exact .named ⟨_, h⟩
    · intro h
      cases h with
      | null => exact ⟨_, .null⟩
      | named h => obtain ⟨a, ha⟩ := h; exact ⟨_, .some (hc _ _ ha) (.leaf ha)⟩
  | list h ih =>
    constructor
    · rintro ⟨a, ha⟩
      cases ha with
      | null => exact .nullList
      | some _ h => obtain ⟨vs, rfl, hv⟩ := (list ih v).1 ⟨_, h⟩; exact .list hv
    · intro h
      cases h with
      | nullList => exact ⟨_, .null⟩
      | list hv =>
        obtain ⟨a, ha⟩ := (list ih _).2 ⟨_, rfl, hv⟩
        exact ⟨_, .some (by simp) ha⟩
  | nonNullNamed =>
    constructor
    · rintro ⟨a, ha⟩
      cases ha with | leaf h => exact .nonNull (hc _ _ h) (.named ⟨_, h⟩)
    · intro h
      cases h with
      | nonNull hn h =>
        cases h with
        | null => exact absurd rfl hn
        | named h => obtain ⟨a, ha⟩ := h; exact ⟨_, .leaf ha⟩
  | nonNullList h ih =>
    rw [list ih]
    constructor
    · rintro ⟨vs, rfl, hv⟩; exact .nonNull (by simp) (.list hv)
    · intro h
      cases h with
      | nonNull hn h =>
        cases h with
        | nullList => exact absurd rfl hn
        | list hv => exact ⟨_, rfl, hv⟩

/-! ## Examples and findings -/

/-- `[[Int!]]!` -/
def exampleType : TypeRef := .nonNull (.list (.list (.nonNull (.named (str "Int")))))

theorem exampleType_proper : Proper exampleType := .nonNullList (.list .nonNullNamed)

example : getType exampleType = (str "Int", [.list, .nullable, .list]) := rfl

example : getInputCppType (str "response::IntType") (getType exampleType).2 =
    str "std::vector<std::optional<std::vector<response::IntType>>>" := by decide +kernel

example : getTypeModifiers (str "service::") (getType exampleType).2 =
    str "<service::TypeModifier::List, service::TypeModifier::Nullable, service::TypeModifier::List>" := by decide +kernel

example : Conforms (fun v => ∃ a, convertInt v = .ok a) exampleType (.list [.null, .list [.int 1, .int 2]]) := by
  refine .nonNull (by simp) (.list ?_)
  intro v hv
  simp only [List.mem_cons, List.not_mem_nil, or_false] at hv
  rcases hv with rfl | rfl
  · exact .nullList
  · refine .list ?_
    intro v hv
    simp only [List.mem_cons, List.not_mem_nil, or_false] at hv
    rcases hv with rfl | rfl
    · exact .nonNull (by simp) (.named ⟨1, rfl⟩)
    · exact .nonNull (by simp) (.named ⟨2, rfl⟩)

/-- Finding: the hypothesis of `C41_values` is necessary: an argument of a custom scalar type `Scalar!` reads null. -/
theorem C41_scalar_reads_null : ∃ a, Fits (fun v a => convertScalar v = .ok a)
      (getType (.nonNull (.named (str "Scalar")))).2 .null a ∧
    ¬ Conforms (fun v => ∃ a, convertScalar v = .ok a) (.nonNull (.named (str "Scalar"))) .null :=
  ⟨_, .leaf rfl, fun h => by cases h with | nonNull hn _ => exact hn rfl⟩

end Verif.Gen
