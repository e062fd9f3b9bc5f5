import Verif.Sound.Convert
import Verif.Sound.Eval

/-!
# The selection sets of accepted operations
-/
namespace Verif.Sound
open Verif.Value Verif.Resp Verif.Errors Verif.Ast Verif.Exec
open Verif.Validation (Schema FieldDef InputValue baseName findArgument findValue VariableTypes Location)
open Verif.Validation.Spec

variable {S : Schema} {fragments : List FragmentDef}

/-! ## What is written in the sets below -/

theorem part_written {type type' : Str} {sel sel' : List Selection} (hp : Part fragments type sel type' sel')
    {ds : Option (List Directive)} (h : Written fragments sel' ds) : Written fragments sel ds := by
  induction hp with
  | self => exact h
  | inline hm _ ih => exact .inline hm (ih h)
  | spread hm hf _ ih => exact .spread hm hf (ih h)

theorem part_variable {type type' : Str} {sel sel' : List Selection} (hp : Part fragments type sel type' sel')
    {v : Str} (h : InSelections fragments sel' v) : InSelections fragments sel v := by
  induction hp with
  | self => exact h
  | inline hm _ ih => exact .inline hm (ih h)
  | spread hm hf _ ih => exact .spread hm hf (ih h)

theorem below_written {type type' : Str} {sel sel' : List Selection} (hb : Below S fragments type sel type' sel') :
    ∀ {ds : Option (List Directive)}, Written fragments sel' ds → Written fragments sel ds := by
  induction hb with
  | self => exact id
  | field _ hf _ _ ih =>
    intro ds h
    obtain ⟨sel1, hp, ⟨e, _⟩ | ⟨pos, below, e, hm⟩⟩ := hf
    · cases e
    · cases e
      exact ih (part_written hp (.node hm h))

theorem below_variable {type type' : Str} {sel sel' : List Selection} (hb : Below S fragments type sel type' sel') :
    ∀ {v : Str}, InSelections fragments sel' v → InSelections fragments sel v := by
  induction hb with
  | self => exact id
  | field _ hf _ _ ih =>
    intro ds h
    obtain ⟨sel1, hp, ⟨e, _⟩ | ⟨pos, below, e, hm⟩⟩ := hf
    · cases e
    · cases e
      exact ih (part_variable hp (.node hm h))

/-! ## A set which can be executed -/

/-- What execution needs to know of a selection set. -/
structure SetOk (S : Schema) (fragments : List FragmentDef) (env : Env) (type : Str) (sel : List Selection) : Prop where
  spread : ∀ type' sel', Part fragments type sel type' sel' → ∀ pos name ds, .spread pos name ds ∈ sel' →
    (∃ fragment, fragments.find? (fun f => f.name == name) = some fragment) ∧ ∃ b, skips env ds = .ok b
  inline : ∀ type' sel', Part fragments type sel type' sel' → ∀ pos t ds sub, .inline pos t ds sub ∈ sel' →
    ∃ b, skips env ds = .ok b
  field : ∀ on f sub, Selects fragments type sel on f sub → ∃ def_, S.findField on f.name = some def_ ∧
    (∃ b, skips env f.directives = .ok b) ∧
    (∃ args, evalOptArgs env f.arguments = .ok args ∧ ArgumentsInhabit S def_.arguments args) ∧
    (sub.isSome ↔ S.isComposite (baseName def_.type) = true)

theorem evalOptArgs_eq (env : Env) (args : Option Args) : evalOptArgs env args = evalArgs env (args.getD []) [] := by
  cases args <;> rfl

theorem accepted_set {overflow : Int → Int} {doc : Document} {op : Operation} {root : Str} {env : Env}
    (h : Accepted S overflow doc op root) (ha : Assigned S doc op env.variables) {type : Str} {sel : List Selection}
    (hb : Below S doc.fragments root op.sub type sel) : SetOk S doc.fragments env type sel := by
  obtain ⟨root', hroot', he⟩ := Validation.accepted_operation h.closed h.wellFormed h.accepted h.operation
  rw [h.rootType] at hroot'
  cases hroot'
  obtain ⟨stack, fields, uses, hs, hc⟩ := entered_below he hb
  refine ⟨fun type' sel' hp pos name ds hm => ?_, fun type' sel' hp pos t ds sub hm => ?_, fun on f sub hsel => ?_⟩
  · obtain ⟨_, _, _, _, _, hc'⟩ := hc.part hp
    obtain ⟨hds, _, fragment, hf, _⟩ := hc'.mem_spread hm
    refine ⟨⟨fragment, hf⟩, skips_exists h.standard ha.values hds ?_ ?_⟩
    · exact h.conditional _ (below_written hb (part_written hp (.spreadHere hm)))
    · exact fun v hv => ha.known v (below_variable hb (part_variable hp (.spreadDirectives hm hv)))
  · obtain ⟨_, _, _, _, _, hc'⟩ := hc.part hp
    obtain ⟨hds, _⟩ := hc'.mem_inline hm
    refine skips_exists h.standard ha.values hds ?_ ?_
    · exact h.conditional _ (below_written hb (part_written hp (.inlineHere hm)))
    · exact fun v hv => ha.known v (below_variable hb (part_variable hp (.inlineDirectives hm hv)))
  · obtain ⟨def_, hfine⟩ := hc.selects hsel
    have hfound := hfine.ok.exists_.found
    have hargs : ArgumentsOk S (some (declared op.variables)) def_.arguments (f.arguments.getD []) := by
      obtain ⟨first, hm, hfirst⟩ := hfine.first
      have hr := hc.recorded (rootType := type) (root := sel) hs (fun _ _ _ h => h) (fun e he => by cases he)
      obtain ⟨hn, sub1, def1, hs1, hf1, ht1, harg1, _, _⟩ := hr _ hm
      by_cases hon : on = first.parent
      · have hagree : first = ⟨on, f, def_.type⟩ ∨ (first.field.name = f.name ∧
            SameArguments overflow (first.field.arguments.getD []) (f.arguments.getD [])) := by
          rcases hfirst with e | ⟨_, ⟨_, _, hne⟩ | hsame⟩
          · exact .inl e
          · exact absurd hon.symm hne
          · exact .inr hsame
        rcases hagree with e | ⟨hname, hsame⟩
        · subst e
          have := hf1.exists_.found
          simp only at this
          rw [hfound] at this
          cases this
          exact harg1
        · have := hf1.exists_.found
          rw [← hon, hname, hfound] at this
          cases this
          exact arguments_again hsame harg1 hfine.ok.unique hfine.ok.uniqueMembers
      · exact h.shared _ _ hb _ _ _ _ _ _ hsel hs1 hn hon _ hfound
    obtain ⟨sel', hp, hmem⟩ := hsel
    have hskips : ∃ b, skips env f.directives = .ok b := by
      refine skips_exists h.standard ha.values hfine.ok.directives ?_ ?_
      · rcases hmem with ⟨_, hm⟩ | ⟨pos, below, _, hm⟩
        · exact h.conditional _ (below_written hb (part_written hp (.leaf hm)))
        · exact h.conditional _ (below_written hb (part_written hp (.nodeHere hm)))
      · intro v hv
        rcases hmem with ⟨_, hm⟩ | ⟨pos, below, _, hm⟩
        · exact ha.known v (below_variable hb (part_variable hp (.leafDirectives hm hv)))
        · exact ha.known v (below_variable hb (part_variable hp (.nodeDirectives hm hv)))
    obtain ⟨args, hev⟩ : ∃ args, evalOptArgs env f.arguments = .ok args := by
      refine evalOptArgs_exists fun v hv => ?_
      rcases hmem with ⟨_, hm⟩ | ⟨pos, below, _, hm⟩
      · exact ha.known v (below_variable hb (part_variable hp (.leafArguments hm hv)))
      · exact ha.known v (below_variable hb (part_variable hp (.nodeArguments hm hv)))
    have hsel : Selects doc.fragments type sel on f sub := ⟨sel', hp, hmem⟩
    refine ⟨def_, hfound, hskips, ⟨args, hev, ?_⟩, ?_⟩
    · rw [evalOptArgs_eq] at hev
      exact Validation.C29_accepted_arguments_inhabit ha.values hargs hev
    · obtain ⟨def', hd', _, _, hiff⟩ := Validation.C32_fields_exist h.closed h.wellFormed h.operationsNonEmpty
        h.fragmentsNonEmpty h.accepted h.operation h.rootType hb hsel
      rw [hfound] at hd'
      cases hd'
      exact hiff (h.consistent _ _ hb _ _ _ hsel)

/-- The type of a set below is composite. -/
theorem accepted_composite {overflow : Int → Int} {doc : Document} {op : Operation} {root : Str}
    (h : Accepted S overflow doc op root) {type : Str} {sel : List Selection}
    (hb : Below S doc.fragments root op.sub type sel) : S.isComposite type = true := by
  obtain ⟨root', hroot', he⟩ := Validation.accepted_operation h.closed h.wellFormed h.accepted h.operation
  rw [h.rootType] at hroot'
  cases hroot'
  obtain ⟨stack, fields, uses, hs, hc⟩ := entered_below he hb
  have hv := (Validation.C48_accepts_iff_valid h.closed h.wellFormed).mp h.accepted
  refine Validation.entered_composite (fun f hf => ?_)
    (Validation.NonEmpty.below h.fragmentsNonEmpty (h.operationsNonEmpty op h.operation) hb) hc
  obtain ⟨used, hok⟩ := hv.fragments f hf
  exact hok.2.1

end Verif.Sound
