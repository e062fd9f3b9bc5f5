import Verif.Gen.LoaderTypes

/-!
# Loading a schema document: the result (C53)
-/
namespace Verif.Gen
open Verif.Value Verif.Resp Verif.Ast Verif.Modifiers

theorem forall₂_modify {α β : Type} {P : α → β → Prop} {f : α → α} {g : β → β} (hfg : ∀ a b, P a b → P (f a) (g b))
    {as : List α} {bs : List β} (h : List.Forall₂ P as bs) (i : Nat) : List.Forall₂ P (as.modify i f) (bs.modify i g) := by
  induction h generalizing i with
  | nil => cases i <;> exact .nil
  | cons hab h ih =>
    cases i with
    | zero => exact .cons (hfg _ _ hab) h
    | succ i => exact .cons hab (ih i)

theorem forall₂_append {α β : Type} {P : α → β → Prop} {as as' : List α} {bs bs' : List β} (h : List.Forall₂ P as bs)
    (h' : List.Forall₂ P as' bs') : List.Forall₂ P (as ++ as') (bs ++ bs') := by
  induction h with
  | nil => exact h'
  | cons hab _ ih => exact .cons hab ih

/-- An object and its parts. -/
structure ObjectItem (atoi : Int → Int) (x : Item) (t : ObjectType) : Prop where
  type : t.type = x.name
  description : t.description = x.description
  interfaces : t.interfaces = x.parts.flatMap (·.interfaces)
  fields : List.Forall₂ (IsOutputField atoi) (x.parts.flatMap (·.fields)) t.fields
  unions : t.unions = []

/-- An interface and its parts. -/
structure InterfaceItem (atoi : Int → Int) (x : Item) (t : InterfaceType) : Prop where
  type : t.type = x.name
  description : t.description = x.description
  fields : List.Forall₂ (IsOutputField atoi) (x.parts.flatMap (·.fields)) t.fields

/-- An input object and its parts. -/
structure InputItem (atoi : Int → Int) (x : Item) (t : InputType) : Prop where
  type : t.type = x.name
  description : t.description = x.description
  fields : List.Forall₂ (IsInputField atoi) (x.parts.flatMap (·.inputFields)) t.fields
  dependencies : t.dependencies = []

/-- A union and its parts. -/
structure UnionItem (x : Item) (t : UnionType) : Prop where
  type : t.type = x.name
  description : t.description = x.description
  options : t.options = x.parts.flatMap (·.options)

/-- An enum and its parts. -/
structure EnumItem (x : Item) (t : EnumType) : Prop where
  type : t.type = x.name
  description : t.description = x.description
  values : List.Forall₂ IsEnumValue (x.parts.flatMap (·.values)) t.values

/-- A scalar. -/
structure ScalarItem (x : Item) (t : ScalarType) : Prop where
  type : t.type = x.name
  description : t.description = x.description

/-- The kind of the last definition of a name. -/
def lastKind (doc : List TypeDef) (n : Str) : Option SchemaType :=
  doc.foldl (fun r d => match d.defines with | some (k, m) => if n = m then some k else r | none => r) none

/-- The types of the kind `k` after `doc`. -/
structure KindOk {T : Type} (P : Item → T → Prop) (k : SchemaType) (doc : List TypeDef) (names : Str → Option Nat)
    (types : List T) : Prop where
  names : names = (Reg.run k {} doc).names
  types : List.Forall₂ P (Reg.run k {} doc).items types

namespace KindOk
variable {T : Type} {P : Item → T → Prop} {k : SchemaType} {doc : List TypeDef} {names : Str → Option Nat}
  {types : List T} {d : TypeDef}

theorem other (h : KindOk P k doc names types) (h1 : d.defines.map (·.1) ≠ some k)
    (h2 : d.extended.map (·.1) ≠ some k) : KindOk P k (doc ++ [d]) names types := by
  have e : Reg.run k {} (doc ++ [d]) = Reg.run k {} doc := by
    rw [Reg.run_concat]
    unfold Reg.step
    split
    · rename_i k' n hd
      rw [if_neg]
      rintro rfl
      exact h1 (by rw [hd]; rfl)
    · split
      · rename_i k' n hd
        rw [if_neg]
        rintro rfl
        exact h2 (by rw [hd]; rfl)
      · rfl
  exact ⟨by rw [e]; exact h.names, by rw [e]; exact h.types⟩

theorem define {n : Str} {t : T} (h : KindOk P k doc names types) (hd : d.defines = some (k, n))
    (hp : P ⟨n, d.description, [d]⟩ t) : KindOk P k (doc ++ [d]) (assign names n types.length) (types ++ [t]) := by
  have e : Reg.run k {} (doc ++ [d]) =
      { names := assign (Reg.run k {} doc).names n (Reg.run k {} doc).items.length,
        items := (Reg.run k {} doc).items ++ [⟨n, d.description, [d]⟩] } := by
    rw [Reg.run_concat]
    simp [Reg.step, hd]
  exact ⟨by rw [e, h.names, h.types.length_eq], by rw [e]; exact forall₂_append h.types (.cons hp .nil)⟩

theorem extend {n : Str} {i : Nat} {g : T → T} (h : KindOk P k doc names types) (hd : d.extended = some (k, n))
    (hn : names n = some i) (hg : ∀ x t, P x t → P { x with parts := x.parts ++ [d] } (g t)) :
    KindOk P k (doc ++ [d]) names (types.modify i g) := by
  have hn' : (Reg.run k {} doc).names n = some i := by rw [← h.names]; exact hn
  have e : Reg.run k {} (doc ++ [d]) =
      { Reg.run k {} doc with
        items := (Reg.run k {} doc).items.modify i fun t => { t with parts := t.parts ++ [d] } } := by
    rw [Reg.run_concat]
    simp [Reg.step, hd, not_both hd, hn']
  exact ⟨by rw [e]; exact h.names, by rw [e]; exact forall₂_modify hg h.types i⟩

theorem ignored {n : Str} (h : KindOk P k doc names types) (hd : d.extended = some (k, n)) (hn : names n = none) :
    KindOk P k (doc ++ [d]) names types := by
  have hn' : (Reg.run k {} doc).names n = none := by rw [← h.names]; exact hn
  have e : Reg.run k {} (doc ++ [d]) = Reg.run k {} doc := by
    rw [Reg.run_concat]
    simp [Reg.step, hd, not_both hd, hn']
  exact ⟨by rw [e]; exact h.names, by rw [e]; exact h.types⟩

/-- An extension of an unknown type. -/
theorem unknown {n : Str} (h : KindOk P k doc names types) (hd : d.extended = some (k, n)) (hn : names n = none) :
    Ignored doc d := by
  rw [h.names, Reg.names_iff] at hn
  exact ⟨k, n, hd, hn⟩

/-- An extension of a known type. -/
theorem known {n : Str} {i : Nat} (h : KindOk P k doc names types) (hd : d.extended = some (k, n))
    (hn : names n = some i) : ¬ Ignored doc d := by
  rintro ⟨k', n', hd', ha⟩
  rw [hd] at hd'
  cases hd'
  rw [← Reg.names_iff, ← h.names, hn] at ha
  cases ha

end KindOk

/-- The state of the loader after `doc`. -/
structure Loaded (atoi : Int → Int) (doc : List TypeDef) (s : Loader) : Prop where
  schemaTypes : ∀ n, s.schemaTypes n = lastKind doc n
  scalars : KindOk ScalarItem .scalar doc s.scalarNames s.scalarTypes
  enums : KindOk EnumItem .enum doc s.enumNames s.enumTypes
  inputs : KindOk (InputItem atoi) .input doc s.inputNames s.inputTypes
  unions : KindOk UnionItem .union doc s.unionNames s.unionTypes
  interfaces : KindOk (InterfaceItem atoi) .interface doc s.interfaceNames s.interfaceTypes
  objects : KindOk (ObjectItem atoi) .object doc s.objectNames s.objectTypes
  directives : List.Forall₂ (IsDirective atoi) (doc.filter (·.isDirective)) s.directives
  operationTypes : s.operationTypes = (doc.flatMap (·.operations)).map fun o => { type := o.2, operation := o.1 }

theorem loaded_init (atoi : Int → Int) : Loaded atoi [] {} := by
  constructor <;> first | exact .nil | rfl | (intro; rfl) | exact ⟨rfl, .nil⟩

theorem modify_concat {α : Type} (l : List α) (a : α) (f : α → α) : (l ++ [a]).modify l.length f = l ++ [f a] := by
  induction l with
  | nil => rfl
  | cons b l ih => simpa using ih

theorem lastKind_concat {doc : List TypeDef} {d : TypeDef} {n : Str} :
    lastKind (doc ++ [d]) n =
      match d.defines with | some (k, m) => if n = m then some k else lastKind doc n | none => lastKind doc n := by
  simp [lastKind, List.foldl_append]

theorem filter_other {doc : List TypeDef} {d : TypeDef} (h : d.isDirective = false) :
    (doc ++ [d]).filter (·.isDirective) = doc.filter (·.isDirective) := by
  simp [List.filter_append, h]

theorem flatMap_other {doc : List TypeDef} {d : TypeDef} (h : d.operations = []) :
    (doc ++ [d]).flatMap (·.operations) = doc.flatMap (·.operations) := by
  simp [h]

/-- An extension which changes nothing. -/
theorem Loaded.ignored {atoi : Int → Int} {doc : List TypeDef} {s : Loader} {d : TypeDef} {k : SchemaType} {n : Str}
    (h : Loaded atoi doc s) (hd : d.extended = some (k, n)) (hn : (Reg.run k {} doc).names n = none) :
    Loaded atoi (doc ++ [d]) s := by
  have hdef := not_both hd
  have key : ∀ {T : Type} {P : Item → T → Prop} {k'} {names types}, KindOk P k' doc names types →
      KindOk P k' (doc ++ [d]) names types := by
    intro T P k' names types h
    by_cases hk : k = k'
    · subst hk
      exact h.ignored hd (by rw [h.names]; exact hn)
    · exact h.other (by simp [hdef]) (by simp [hd, hk])
  have h1 : d.isDirective = false := by cases d <;> simp_all [TypeDef.extended, TypeDef.isDirective]
  have h2 : d.operations = [] := by cases d <;> simp_all [TypeDef.extended, TypeDef.operations]
  refine ⟨fun m => ?_, key h.scalars, key h.enums, key h.inputs, key h.unions, key h.interfaces, key h.objects, ?_, ?_⟩
  · rw [lastKind_concat, hdef]
    exact h.schemaTypes m
  · rw [filter_other h1]
    exact h.directives
  · rw [flatMap_other h2]
    exact h.operationTypes

/-- No null default in the definition. -/
theorem no_problem {pre : List TypeDef} {d : TypeDef} (h1 : d ≠ .executable) (h2 : ∀ n, d ≠ .scalarExtension n)
    (h3 : Ignored pre d ∨ ∀ a ∈ d.inputs, ¬ NullDefault a) (e : LoadError) : ¬ Problem pre d e := by
  intro he
  cases he with
  | executable => exact h1 rfl
  | scalarExtension => exact h2 _ rfl
  | nullDefault hi ha _ hn =>
    rcases h3 with h3 | h3
    · exact hi h3
    · exact h3 _ (by rw [ha]; simp) hn

/-- A definition is not an extension. -/
theorem not_ignored {pre : List TypeDef} {d : TypeDef} (h : d.extended = none) : ¬ Ignored pre d := by
  rintro ⟨k, n, hd, _⟩
  rw [h] at hd
  cases hd

/-- The kind of what is defined or extended. -/
def TypeDef.about (d : TypeDef) : Option SchemaType := (d.defines.or d.extended).map (·.1)

theorem KindOk.about {T : Type} {P : Item → T → Prop} {k : SchemaType} {doc : List TypeDef} {names : Str → Option Nat}
    {types : List T} {d : TypeDef} (h : KindOk P k doc names types) (hd : d.about ≠ some k) :
    KindOk P k (doc ++ [d]) names types := by
  refine h.other (fun e => hd ?_) (fun e => hd ?_)
  · obtain ⟨x, hx, rfl⟩ := Option.map_eq_some_iff.1 e
    simp [TypeDef.about, hx]
  · obtain ⟨x, hx, rfl⟩ := Option.map_eq_some_iff.1 e
    simp [TypeDef.about, hx, not_both hx]

theorem about_isDirective {d : TypeDef} {k : SchemaType} (h : d.about = some k) : d.isDirective = false := by
  cases d <;> first | rfl | exact nomatch h

theorem about_operations {d : TypeDef} {k : SchemaType} (h : d.about = some k) : d.operations = [] := by
  cases d <;> first | rfl | exact nomatch h

theorem Loaded.scalar {atoi : Int → Int} {doc : List TypeDef} {s : Loader} {d : TypeDef} {names types st}
    (h : Loaded atoi doc s) (hd : d.about = some .scalar) (ho : KindOk ScalarItem .scalar (doc ++ [d]) names types)
    (hst : ∀ m, st m = lastKind (doc ++ [d]) m) :
    Loaded atoi (doc ++ [d]) { s with schemaTypes := st, scalarNames := names, scalarTypes := types } :=
  ⟨hst, ho, h.enums.about (by rw [hd]; simp), h.inputs.about (by rw [hd]; simp),
    h.unions.about (by rw [hd]; simp), h.interfaces.about (by rw [hd]; simp), h.objects.about (by rw [hd]; simp),
    by rw [filter_other (about_isDirective hd)]; exact h.directives,
    by rw [flatMap_other (about_operations hd)]; exact h.operationTypes⟩

theorem Loaded.enum {atoi : Int → Int} {doc : List TypeDef} {s : Loader} {d : TypeDef} {names types st}
    (h : Loaded atoi doc s) (hd : d.about = some .enum) (ho : KindOk EnumItem .enum (doc ++ [d]) names types)
    (hst : ∀ m, st m = lastKind (doc ++ [d]) m) :
    Loaded atoi (doc ++ [d]) { s with schemaTypes := st, enumNames := names, enumTypes := types } :=
  ⟨hst, h.scalars.about (by rw [hd]; simp), ho, h.inputs.about (by rw [hd]; simp),
    h.unions.about (by rw [hd]; simp), h.interfaces.about (by rw [hd]; simp), h.objects.about (by rw [hd]; simp),
    by rw [filter_other (about_isDirective hd)]; exact h.directives,
    by rw [flatMap_other (about_operations hd)]; exact h.operationTypes⟩

theorem Loaded.input {atoi : Int → Int} {doc : List TypeDef} {s : Loader} {d : TypeDef} {names types st}
    (h : Loaded atoi doc s) (hd : d.about = some .input) (ho : KindOk (InputItem atoi) .input (doc ++ [d]) names types)
    (hst : ∀ m, st m = lastKind (doc ++ [d]) m) :
    Loaded atoi (doc ++ [d]) { s with schemaTypes := st, inputNames := names, inputTypes := types } :=
  ⟨hst, h.scalars.about (by rw [hd]; simp), h.enums.about (by rw [hd]; simp), ho,
    h.unions.about (by rw [hd]; simp), h.interfaces.about (by rw [hd]; simp), h.objects.about (by rw [hd]; simp),
    by rw [filter_other (about_isDirective hd)]; exact h.directives,
    by rw [flatMap_other (about_operations hd)]; exact h.operationTypes⟩

theorem Loaded.union {atoi : Int → Int} {doc : List TypeDef} {s : Loader} {d : TypeDef} {names types st}
    (h : Loaded atoi doc s) (hd : d.about = some .union) (ho : KindOk UnionItem .union (doc ++ [d]) names types)
    (hst : ∀ m, st m = lastKind (doc ++ [d]) m) :
    Loaded atoi (doc ++ [d]) { s with schemaTypes := st, unionNames := names, unionTypes := types } :=
  ⟨hst, h.scalars.about (by rw [hd]; simp), h.enums.about (by rw [hd]; simp), h.inputs.about (by rw [hd]; simp),
    ho, h.interfaces.about (by rw [hd]; simp), h.objects.about (by rw [hd]; simp),
    by rw [filter_other (about_isDirective hd)]; exact h.directives,
    by rw [flatMap_other (about_operations hd)]; exact h.operationTypes⟩

theorem Loaded.interface {atoi : Int → Int} {doc : List TypeDef} {s : Loader} {d : TypeDef} {names types st}
    (h : Loaded atoi doc s) (hd : d.about = some .interface) (ho : KindOk (InterfaceItem atoi) .interface (doc ++ [d]) names types)
    (hst : ∀ m, st m = lastKind (doc ++ [d]) m) :
    Loaded atoi (doc ++ [d]) { s with schemaTypes := st, interfaceNames := names, interfaceTypes := types } :=
  ⟨hst, h.scalars.about (by rw [hd]; simp), h.enums.about (by rw [hd]; simp), h.inputs.about (by rw [hd]; simp),
    h.unions.about (by rw [hd]; simp), ho, h.objects.about (by rw [hd]; simp),
    by rw [filter_other (about_isDirective hd)]; exact h.directives,
    by rw [flatMap_other (about_operations hd)]; exact h.operationTypes⟩

theorem Loaded.object {atoi : Int → Int} {doc : List TypeDef} {s : Loader} {d : TypeDef} {names types st}
    (h : Loaded atoi doc s) (hd : d.about = some .object) (ho : KindOk (ObjectItem atoi) .object (doc ++ [d]) names types)
    (hst : ∀ m, st m = lastKind (doc ++ [d]) m) :
    Loaded atoi (doc ++ [d]) { s with schemaTypes := st, objectNames := names, objectTypes := types } :=
  ⟨hst, h.scalars.about (by rw [hd]; simp), h.enums.about (by rw [hd]; simp), h.inputs.about (by rw [hd]; simp),
    h.unions.about (by rw [hd]; simp), h.interfaces.about (by rw [hd]; simp), ho,
    by rw [filter_other (about_isDirective hd)]; exact h.directives,
    by rw [flatMap_other (about_operations hd)]; exact h.operationTypes⟩

theorem Loaded.kept {atoi : Int → Int} {doc : List TypeDef} {s : Loader} {d : TypeDef} (h : Loaded atoi doc s)
    (hd : d.defines = none) (m : Str) : s.schemaTypes m = lastKind (doc ++ [d]) m := by
  rw [lastKind_concat, hd]
  exact h.schemaTypes m

theorem Loaded.assigned {atoi : Int → Int} {doc : List TypeDef} {s : Loader} {d : TypeDef} {k : SchemaType} {n : Str}
    (h : Loaded atoi doc s) (hd : d.defines = some (k, n)) (m : Str) :
    assign s.schemaTypes n k m = lastKind (doc ++ [d]) m := by
  rw [lastKind_concat, hd]
  simp [assign, h.schemaTypes m]

theorem visitDefinition_cases {atoi : Int → Int} {pre : List TypeDef} {s : Loader} (d : TypeDef) (h : Loaded atoi pre s) :
    (∃ s', visitDefinition atoi s d = .ok s' ∧ Loaded atoi (pre ++ [d]) s' ∧ ∀ e, ¬ Problem pre d e) ∨
    ∃ e, visitDefinition atoi s d = .error e ∧ Problem pre d e := by
  cases d with
  | executable => exact .inr ⟨_, rfl, .executable⟩
  | scalarExtension n => exact .inr ⟨_, rfl, .scalarExtension⟩
  | schema os =>
    refine .inl ⟨_, rfl, ?_, no_problem nofun nofun (.inr (by simp [TypeDef.inputs, TypeDef.fields]))⟩
    refine ⟨h.kept rfl, h.scalars.about nofun, h.enums.about nofun, h.inputs.about nofun, h.unions.about nofun,
      h.interfaces.about nofun, h.objects.about nofun, by rw [filter_other rfl]; exact h.directives, ?_⟩
    simp [visitSchema, h.operationTypes, TypeDef.operations]
  | schemaExtension os =>
    refine .inl ⟨_, rfl, ?_, no_problem nofun nofun (.inr (by simp [TypeDef.inputs, TypeDef.fields]))⟩
    refine ⟨h.kept rfl, h.scalars.about nofun, h.enums.about nofun, h.inputs.about nofun, h.unions.about nofun,
      h.interfaces.about nofun, h.objects.about nofun, by rw [filter_other rfl]; exact h.directives, ?_⟩
    simp [visitSchema, h.operationTypes, TypeDef.operations]
  | scalar desc n =>
    refine .inl ⟨_, rfl, ?_, no_problem nofun nofun (.inr (by simp [TypeDef.inputs, TypeDef.fields]))⟩
    refine h.scalar rfl (h.scalars.define rfl ⟨rfl, rfl⟩) (h.assigned rfl)
  | enum desc n vs =>
    refine .inl ⟨_, rfl, ?_, no_problem nofun nofun (.inr (by simp [TypeDef.inputs, TypeDef.fields]))⟩
    have e : visitEnum s desc n vs =
        { s with
          schemaTypes := assign s.schemaTypes n .enum
          enumNames := assign s.enumNames n s.enumTypes.length
          enumTypes := s.enumTypes ++ [{ type := n, description := desc, values := vs.map getEnumValue }] } := by
      simp [visitEnum, visitEnumExtension, assign, modify_concat]
    rw [e]
    refine h.enum rfl (h.enums.define rfl ⟨rfl, rfl, ?_⟩) (h.assigned rfl)
    simp only [List.flatMap_cons, List.flatMap_nil, List.append_nil, TypeDef.values]
    clear e
    induction vs with
    | nil => exact .nil
    | cons v vs ih => exact .cons ⟨rfl, rfl, enumDeprecation_spec _⟩ ih
  | enumExtension n vs =>
    left
    cases hn : s.enumNames n with
    | none =>
      refine ⟨s, by simp [visitDefinition, visitEnumExtension, hn], h.ignored (k := .enum) rfl (by rw [← h.enums.names]; exact hn),
        no_problem nofun nofun (.inl (h.enums.unknown rfl hn))⟩
    | some i =>
      refine ⟨_, rfl, ?_, no_problem nofun nofun (.inr (by simp [TypeDef.inputs, TypeDef.fields]))⟩
      simp only [visitEnumExtension, hn]
      refine h.enum rfl (h.enums.extend rfl hn ?_) (h.kept rfl)
      intro x t ht
      refine ⟨ht.type, ht.description, ?_⟩
      simp only [List.flatMap_append, List.flatMap_cons, List.flatMap_nil, List.append_nil, TypeDef.values]
      refine forall₂_append ht.values ?_
      clear hn ht
      induction vs with
      | nil => exact .nil
      | cons v vs ih => exact .cons ⟨rfl, rfl, enumDeprecation_spec _⟩ ih
  | union desc n os =>
    refine .inl ⟨_, rfl, ?_, no_problem nofun nofun (.inr (by simp [TypeDef.inputs, TypeDef.fields]))⟩
    have e : visitUnion s desc n os =
        { s with
          schemaTypes := assign s.schemaTypes n .union
          unionNames := assign s.unionNames n s.unionTypes.length
          unionTypes := s.unionTypes ++ [{ type := n, description := desc, options := os }] } := by
      simp [visitUnion, visitUnionExtension, assign, modify_concat]
    rw [e]
    refine h.union rfl (h.unions.define rfl ⟨rfl, rfl, by simp [TypeDef.options]⟩) (h.assigned rfl)
  | unionExtension n os =>
    left
    cases hn : s.unionNames n with
    | none =>
      refine ⟨s, by simp [visitDefinition, visitUnionExtension, hn], h.ignored (k := .union) rfl (by rw [← h.unions.names]; exact hn),
        no_problem nofun nofun (.inl (h.unions.unknown rfl hn))⟩
    | some i =>
      refine ⟨_, rfl, ?_, no_problem nofun nofun (.inr (by simp [TypeDef.inputs, TypeDef.fields]))⟩
      simp only [visitUnionExtension, hn]
      refine h.union rfl (h.unions.extend rfl hn ?_) (h.kept rfl)
      intro x t ht
      exact ⟨ht.type, ht.description, by simp [ht.options, TypeDef.options]⟩
  | input desc n fs =>
    rcases getInputFields_cases atoi fs with ⟨fields, h1, h2, h3⟩ | ⟨as, a, bs, h1, h2, h3, h4⟩
    · refine .inl ⟨{ s with
          schemaTypes := assign s.schemaTypes n .input
          inputNames := assign s.inputNames n s.inputTypes.length
          inputTypes := s.inputTypes ++ [{ type := n, description := desc, fields := fields }] }, ?_, ?_,
        no_problem nofun nofun (.inr h3)⟩
      · simp [visitDefinition, visitInput, visitInputExtension, assign, modify_concat, h1]
      refine h.input rfl (h.inputs.define rfl ⟨rfl, rfl, by simpa [TypeDef.inputFields] using h2, rfl⟩) (h.assigned rfl)
    · refine .inr ⟨_, ?_, .nullDefault (not_ignored rfl) h1 h2 h3⟩
      simp [visitDefinition, visitInput, visitInputExtension, assign, h4]
  | inputExtension n fs =>
    cases hn : s.inputNames n with
    | none =>
      exact .inl ⟨s, by simp [visitDefinition, visitInputExtension, hn], h.ignored (k := .input) rfl (by rw [← h.inputs.names]; exact hn),
        no_problem nofun nofun (.inl (h.inputs.unknown rfl hn))⟩
    | some i =>
      rcases getInputFields_cases atoi fs with ⟨fields, h1, h2, h3⟩ | ⟨as, a, bs, h1, h2, h3, h4⟩
      · refine .inl ⟨{ s with inputTypes := s.inputTypes.modify i fun t => { t with fields := t.fields ++ fields } },
          by simp [visitDefinition, visitInputExtension, hn, h1], ?_, no_problem nofun nofun (.inr h3)⟩
        refine h.input rfl (h.inputs.extend rfl hn ?_) (h.kept rfl)
        intro x t ht
        refine ⟨ht.type, ht.description, ?_, ht.dependencies⟩
        simp only [List.flatMap_append, List.flatMap_cons, List.flatMap_nil, List.append_nil, TypeDef.inputFields]
        exact forall₂_append ht.fields h2
      · refine .inr ⟨_, ?_, .nullDefault (h.inputs.known rfl hn) h1 h2 h3⟩
        simp [visitDefinition, visitInputExtension, hn, h4]
  | interface desc n fs =>
    rcases getOutputFields_cases atoi fs with ⟨fields, h1, h2, h3⟩ | ⟨as, a, bs, h1, h2, h3, h4⟩
    · refine .inl ⟨{ s with
          schemaTypes := assign s.schemaTypes n .interface
          interfaceNames := assign s.interfaceNames n s.interfaceTypes.length
          interfaceTypes := s.interfaceTypes ++ [{ type := n, description := desc, fields := fields }] }, ?_, ?_,
        no_problem nofun nofun (.inr h3)⟩
      · simp [visitDefinition, visitInterface, visitInterfaceExtension, assign, modify_concat, h1]
      refine h.interface rfl (h.interfaces.define rfl ⟨rfl, rfl, by simpa [TypeDef.fields] using h2⟩) (h.assigned rfl)
    · refine .inr ⟨_, ?_, .nullDefault (not_ignored rfl) h1 h2 h3⟩
      simp [visitDefinition, visitInterface, visitInterfaceExtension, assign, h4]
  | interfaceExtension n fs =>
    cases hn : s.interfaceNames n with
    | none =>
      exact .inl ⟨s, by simp [visitDefinition, visitInterfaceExtension, hn], h.ignored (k := .interface) rfl (by rw [← h.interfaces.names]; exact hn),
        no_problem nofun nofun (.inl (h.interfaces.unknown rfl hn))⟩
    | some i =>
      rcases getOutputFields_cases atoi fs with ⟨fields, h1, h2, h3⟩ | ⟨as, a, bs, h1, h2, h3, h4⟩
      · refine .inl ⟨{ s with interfaceTypes := s.interfaceTypes.modify i fun t => { t with fields := t.fields ++ fields } },
          by simp [visitDefinition, visitInterfaceExtension, hn, h1], ?_, no_problem nofun nofun (.inr h3)⟩
        refine h.interface rfl (h.interfaces.extend rfl hn ?_) (h.kept rfl)
        intro x t ht
        refine ⟨ht.type, ht.description, ?_⟩
        simp only [List.flatMap_append, List.flatMap_cons, List.flatMap_nil, List.append_nil, TypeDef.fields]
        exact forall₂_append ht.fields h2
      · refine .inr ⟨_, ?_, .nullDefault (h.interfaces.known rfl hn) h1 h2 h3⟩
        simp [visitDefinition, visitInterfaceExtension, hn, h4]
  | object desc n is fs =>
    rcases getOutputFields_cases atoi fs with ⟨fields, h1, h2, h3⟩ | ⟨as, a, bs, h1, h2, h3, h4⟩
    · refine .inl ⟨{ s with
          schemaTypes := assign s.schemaTypes n .object
          objectNames := assign s.objectNames n s.objectTypes.length
          objectTypes := s.objectTypes ++ [{ type := n, description := desc, interfaces := is, fields := fields }] }, ?_, ?_,
        no_problem nofun nofun (.inr h3)⟩
      · simp [visitDefinition, visitObject, visitObjectExtension, assign, modify_concat, h1]
      refine h.object rfl (h.objects.define rfl ⟨rfl, rfl, by simp [TypeDef.interfaces], by simpa [TypeDef.fields] using h2, rfl⟩) (h.assigned rfl)
    · refine .inr ⟨_, ?_, .nullDefault (not_ignored rfl) h1 h2 h3⟩
      simp [visitDefinition, visitObject, visitObjectExtension, assign, h4]
  | objectExtension n is fs =>
    cases hn : s.objectNames n with
    | none =>
      exact .inl ⟨s, by simp [visitDefinition, visitObjectExtension, hn], h.ignored (k := .object) rfl (by rw [← h.objects.names]; exact hn),
        no_problem nofun nofun (.inl (h.objects.unknown rfl hn))⟩
    | some i =>
      rcases getOutputFields_cases atoi fs with ⟨fields, h1, h2, h3⟩ | ⟨as, a, bs, h1, h2, h3, h4⟩
      · refine .inl ⟨{ s with objectTypes := s.objectTypes.modify i fun t =>
            { t with interfaces := t.interfaces ++ is, fields := t.fields ++ fields } },
          by simp [visitDefinition, visitObjectExtension, hn, h1], ?_, no_problem nofun nofun (.inr h3)⟩
        refine h.object rfl (h.objects.extend rfl hn ?_) (h.kept rfl)
        intro x t ht
        refine ⟨ht.type, ht.description, by simp [ht.interfaces, TypeDef.interfaces], ?_, ht.unions⟩
        simp only [List.flatMap_append, List.flatMap_cons, List.flatMap_nil, List.append_nil, TypeDef.fields]
        exact forall₂_append ht.fields h2
      · refine .inr ⟨_, ?_, .nullDefault (h.objects.known rfl hn) h1 h2 h3⟩
        simp [visitDefinition, visitObjectExtension, hn, h4]
  | directive desc n args ls =>
    rcases getInputFields_cases atoi args with ⟨fields, h1, h2, h3⟩ | ⟨as, a, bs, h1, h2, h3, h4⟩
    · refine .inl ⟨{ s with
          directives := s.directives ++ [{ name := n, locations := ls, arguments := fields, description := desc }] },
        by simp [visitDefinition, visitDirective, h1], ?_, no_problem nofun nofun (.inr h3)⟩
      refine ⟨h.kept rfl, h.scalars.about nofun, h.enums.about nofun, h.inputs.about nofun, h.unions.about nofun,
        h.interfaces.about nofun, h.objects.about nofun, ?_, by rw [flatMap_other rfl]; exact h.operationTypes⟩
      rw [List.filter_append]
      exact forall₂_append h.directives (.cons ⟨args, rfl, h2⟩ .nil)
    · refine .inr ⟨_, ?_, .nullDefault (not_ignored rfl) h1 h2 h3⟩
      simp [visitDefinition, visitDirective, h4]

/-- Either the whole document is loaded, or the first problem is reported. -/
theorem visitDefinitions_cases {atoi : Int → Int} {pre : List TypeDef} {s : Loader} (doc : List TypeDef)
    (h : Loaded atoi pre s) :
    (∃ s', visitDefinitions atoi s doc = .ok s' ∧ Loaded atoi (pre ++ doc) s' ∧
      ∀ as d bs e, doc = as ++ d :: bs → ¬ Problem (pre ++ as) d e) ∨
    ∃ e as d bs, visitDefinitions atoi s doc = .error e ∧ doc = as ++ d :: bs ∧ Problem (pre ++ as) d e ∧
      ∀ as' d' bs' e', as = as' ++ d' :: bs' → ¬ Problem (pre ++ as') d' e' := by
  induction doc generalizing pre s with
  | nil =>
    refine .inl ⟨s, rfl, by simpa using h, ?_⟩
    intro as d bs e hd
    simp at hd
  | cons d doc ih =>
    simp only [visitDefinitions]
    rcases visitDefinition_cases d h with ⟨s', h1, h2, h3⟩ | ⟨e, h1, h2⟩
    · rw [h1]
      simp only
      rcases ih h2 with ⟨s'', i1, i2, i3⟩ | ⟨e, as, d', bs, i1, rfl, i3, i4⟩
      · refine .inl ⟨s'', i1, by simpa using i2, ?_⟩
        intro as d' bs e hd
        cases as with
        | nil =>
          simp only [List.nil_append, List.cons.injEq] at hd
          obtain ⟨rfl, rfl⟩ := hd
          simpa using h3 e
        | cons a as =>
          simp only [List.cons_append, List.cons.injEq] at hd
          obtain ⟨rfl, hd⟩ := hd
          have := i3 as d' bs e hd
          simpa using this
      · refine .inr ⟨e, d :: as, d', bs, i1, rfl, by simpa using i3, ?_⟩
        intro as' d'' bs' e' hd
        cases as' with
        | nil =>
          simp only [List.nil_append, List.cons.injEq] at hd
          obtain ⟨rfl, _⟩ := hd
          simpa using h3 e'
        | cons a as' =>
          simp only [List.cons_append, List.cons.injEq] at hd
          obtain ⟨rfl, hd⟩ := hd
          have := i4 as' d'' bs' e' hd
          simpa using this
    · rw [h1]
      refine .inr ⟨e, [], d, doc, rfl, rfl, by simpa using h2, ?_⟩
      intro as' d' bs' e' hd
      simp at hd

end Verif.Gen
