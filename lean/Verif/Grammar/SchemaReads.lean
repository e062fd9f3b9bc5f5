import Verif.Grammar.SchemaObjects

/-!
# What is read from the nodes of a definition
-/
namespace Verif.Peg
open Verif.Value Verif.Text Verif.Gen Rule

variable {rd : Read}

theorem nameOf_nodes {J : Str → Str} {ds zs : List (Node R)} {d n : Str} {l : Nat} {kn : R} (hd : DescNodes J ds d)
    (hk : kn ≠ .description) : nameOf kn (ds ++ ([.mk kn l n []] ++ zs)) = some n := by
  unfold nameOf
  rw [firstChild_skip ((kinds_desc hd).no (by simpa using hk)), List.singleton_append, firstChild_cons, rule_mk, if_pos rfl]
  rfl

theorem childrenOf_append (k : R) (xs ys : List (Node R)) : childrenOf k (xs ++ ys) = childrenOf k xs ++ childrenOf k ys := by
  simp [childrenOf]

theorem childrenOf_none {ks : List R} {xs : List (Node R)} (h : Kinds ks xs) {k : R} (hk : k ∉ ks) : childrenOf k xs = [] := by
  simp only [childrenOf, List.filter_eq_nil_iff, beq_iff_eq]
  exact h.no hk

theorem childrenOf_all {k : R} {xs : List (Node R)} (h : Kinds [k] xs) : childrenOf k xs = xs := by
  simp only [childrenOf, List.filter_eq_self, beq_iff_eq]
  exact fun x hx => by simpa using h x hx

theorem kinds_name (kn : R) (l : Nat) (n : Str) : Kinds [kn] [.mk kn l n []] := by simp [Kinds, rule_mk]

theorem kinds_dirs {xs : List (Node R)} {o : Option (List Ast.Directive)} (h : OptNodes (One (IsDirectives rd)) xs o) :
    Kinds [.directives] xs := kinds_opt (fun _ _ h => h.1) h

theorem kinds_named {k : R} {xs : List (Node R)} {as : List Str} (h : List.Forall₂ (IsNamed k) xs as) : Kinds [k] xs :=
  kinds_all (fun _ _ h => h.1) h

theorem contents_named {k : R} {xs : List (Node R)} {as : List Str} (h : List.Forall₂ (IsNamed k) xs as) :
    xs.map Node.content = as := by
  induction h with
  | nil => rfl
  | cons h _ ih => simp [h.2, ih]

/-- The nodes of an optional list. -/
theorem optNodes_all {α : Type} {W : Node R → α → Prop} {xs : List (Node R)} {o : Option (List α)}
    (h : OptNodes (List.Forall₂ W) xs o) : List.Forall₂ W xs (o.getD []) := by
  cases h with
  | none => exact .nil
  | some h => exact h

theorem description_nodes {ds zs : List (Node R)} {d : Str} (hd : DescNodes rd.unescapeJ ds d) {ks : List R} (hz : Kinds ks zs)
    (hk : R.description ∉ ks) : descriptionOf rd (ds ++ zs) = d := descriptionOf_nodes hd (hz.no hk)

/-- What comes before the fields. -/
theorem optChild_last {α : Type} {k : R} {f : Node R → Option α} {W : Node R → α → Prop}
    (hW : ∀ x a, W x a → x.rule = k ∧ f x = some a) {ks : List R} {as ns : List (Node R)} {o : Option α} (ha : Kinds ks as)
    (hk : k ∉ ks) (h : OptNodes (One W) ns o) : optChild k f (as ++ ns) = some o := by
  rw [optChild_skip ha hk, optChild_nodes' hW h]

theorem same_append4 {a b c d : List (Node R)} : a ++ (b ++ (c ++ d)) = (a ++ (b ++ c)) ++ d := by simp

/-! ## Interfaces, unions, enums, input objects -/

theorem interface_nodes {cs : List (Node R)} {d n : Str} {o : Option (List Ast.Directive)} {o' : Option (List FieldDef)}
    (h : DefNodes rd .interface_name (One (IsFieldsDef rd)) cs d n o o') :
    nameOf .interface_name cs = some n ∧ fieldsOf rd cs = some (o'.getD []) ∧ descriptionOf rd cs = d := by
  obtain ⟨ds, l, xs, ys, rfl, hd, hx, hy⟩ := h
  have kd := kinds_desc hd
  have kn := kinds_name .interface_name l n
  have kx := kinds_dirs hx
  have ky := kinds_opt (k := .fields_definition) (fun _ _ h => h.1) hy
  refine ⟨nameOf_nodes hd (by decide), ?_, description_nodes hd (kn.append (kx.append ky)) (by decide)⟩
  unfold fieldsOf
  rw [same_append4, optChild_last (fun _ _ h => h) (kd.append (kn.append kx)) (by decide) hy]
  rfl

theorem input_nodes {cs : List (Node R)} {d n : Str} {o : Option (List Ast.Directive)} {o' : Option (List InputValueDef)}
    (h : DefNodes rd .object_name (One (IsInputFields rd)) cs d n o o') :
    nameOf .object_name cs = some n ∧ inputFieldsOf rd cs = some (o'.getD []) ∧ descriptionOf rd cs = d := by
  obtain ⟨ds, l, xs, ys, rfl, hd, hx, hy⟩ := h
  have kd := kinds_desc hd
  have kn := kinds_name .object_name l n
  have kx := kinds_dirs hx
  have ky := kinds_opt (k := .input_fields_definition) (fun _ _ h => h.1) hy
  refine ⟨nameOf_nodes hd (by decide), ?_, description_nodes hd (kn.append (kx.append ky)) (by decide)⟩
  unfold inputFieldsOf
  rw [same_append4, optChild_last (fun _ _ h => h) (kd.append (kn.append kx)) (by decide) hy]
  rfl

theorem union_nodes {cs : List (Node R)} {d n : Str} {o : Option (List Ast.Directive)} {o' : Option (List Str)}
    (h : DefNodes rd .union_name (List.Forall₂ (IsNamed .union_type)) cs d n o o') :
    nameOf .union_name cs = some n ∧ (childrenOf .union_type cs).map Node.content = o'.getD [] ∧ descriptionOf rd cs = d := by
  obtain ⟨ds, l, xs, ys, rfl, hd, hx, hy⟩ := h
  have hy := optNodes_all hy
  have kd := kinds_desc hd
  have kn := kinds_name .union_name l n
  have kx := kinds_dirs hx
  have ky := kinds_named hy
  refine ⟨nameOf_nodes hd (by decide), ?_, description_nodes hd (kn.append (kx.append ky)) (by decide)⟩
  rw [same_append4, childrenOf_append, childrenOf_none (kd.append (kn.append kx)) (by decide), childrenOf_all ky]
  exact contents_named hy

theorem enum_nodes {cs : List (Node R)} {d n : Str} {o : Option (List Ast.Directive)} {o' : Option (List EnumValueDef)}
    (h : DefNodes rd .enum_name (List.Forall₂ (IsEnumValue rd)) cs d n o o') :
    nameOf .enum_name cs = some n ∧ (childrenOf .enum_value_definition cs).mapM (enumValueOf rd) = some (o'.getD []) ∧
      descriptionOf rd cs = d := by
  obtain ⟨ds, l, xs, ys, rfl, hd, hx, hy⟩ := h
  have hy := optNodes_all hy
  have kd := kinds_desc hd
  have kn := kinds_name .enum_name l n
  have kx := kinds_dirs hx
  have ky := kinds_all (k := .enum_value_definition) (fun _ _ h => h.1) hy
  refine ⟨nameOf_nodes hd (by decide), ?_, description_nodes hd (kn.append (kx.append ky)) (by decide)⟩
  rw [same_append4, childrenOf_append, childrenOf_none (kd.append (kn.append kx)) (by decide), childrenOf_all ky]
  exact mapM_of (hy.imp fun _ _ h => h.2)

/-! ## Objects -/

theorem object_nodes {cs : List (Node R)} {d n : Str} {is : List Str} {o : Option (List Ast.Directive)} {o' : Option (List FieldDef)}
    (h : ObjectNodes rd cs d n is o o') :
    nameOf .object_name cs = some n ∧ fieldsOf rd cs = some (o'.getD []) ∧
      (childrenOf .interface_type cs).map Node.content = is ∧ descriptionOf rd cs = d := by
  obtain ⟨ds, l, ws, xs, ys, rfl, hd, hw, hx, hy⟩ := h
  have kd := kinds_desc hd
  have kn := kinds_name .object_name l n
  have kw := kinds_named hw
  have kx := kinds_dirs hx
  have ky := kinds_opt (k := .fields_definition) (fun _ _ h => h.1) hy
  refine ⟨nameOf_nodes hd (by decide), ?_, ?_, description_nodes hd (kn.append (kw.append (kx.append ky))) (by decide)⟩
  · have e : ds ++ ([.mk .object_name l n []] ++ (ws ++ (xs ++ ys))) =
        (ds ++ ([.mk .object_name l n []] ++ (ws ++ xs))) ++ ys := by simp
    unfold fieldsOf
    rw [e, optChild_last (fun _ _ h => h) (kd.append (kn.append (kw.append kx))) (by decide) hy]
    rfl
  · rw [childrenOf_append, childrenOf_none kd (by decide), childrenOf_append, childrenOf_none kn (by decide), childrenOf_append,
      childrenOf_all kw, childrenOf_none (kx.append ky) (by decide)]
    simp [contents_named hw]

end Verif.Peg
