import Verif.Intro.Claims
import Verif.Validation.Examples
import Verif.Sound.Examples

/-!
# Requests without fragments, directives and variables
-/
namespace Verif.Intro
open Verif.Value Verif.Resp Verif.Errors Verif.Ast Verif.Exec
open Verif.Validation.Spec
open Verif.Sound (Accepted Supplied Implements Written Conditional)
open Verif.Validation (baseName)

/-- No directives, and no variables. -/
structure BareField (f : Field) : Prop where
  directives : f.directives = none
  arguments : ∀ v, ¬ InArguments f.arguments v

/-- Fields with different response names, with such selections below them. -/
inductive Plain : List Selection → Prop where
  | mk {sel} (hne : sel ≠ []) (hleaf : ∀ f, .leaf f ∈ sel → BareField f) (hnode : ∀ f pos sub, .node f pos sub ∈ sel → BareField f)
      (hsub : ∀ f pos sub, .node f pos sub ∈ sel → Plain sub) (hspread : ∀ pos g ds, .spread pos g ds ∉ sel)
      (hinline : ∀ pos t ds sub, .inline pos t ds sub ∉ sel)
      (hsame : ∀ f f', (.leaf f ∈ sel ∨ ∃ pos sub, .node f pos sub ∈ sel) → (.leaf f' ∈ sel ∨ ∃ pos sub, .node f' pos sub ∈ sel) →
        responseName f = responseName f' → f = f')
      (honce : ∀ f pos sub, .node f pos sub ∈ sel → .leaf f ∉ sel ∧ ∀ pos' sub', .node f pos' sub' ∈ sel → sub' = sub) : Plain sel

variable {fragments : List FragmentDef} {S : Validation.Schema}

theorem Plain.part {sel sel' : List Selection} (h : Plain sel) {type on : Str} (hp : Part fragments type sel on sel') :
    on = type ∧ sel' = sel := by
  cases h with
  | mk _ _ _ _ hs hi _ _ =>
    cases hp with
    | self => exact ⟨rfl, rfl⟩
    | inline hm _ => exact absurd hm (hi _ _ _ _)
    | spread hm _ _ => exact absurd hm (hs _ _ _)

theorem Plain.selects {sel : List Selection} (h : Plain sel) {type on : Str} {f : Field} {sub : Option (List Selection)}
    (hs : Selects fragments type sel on f sub) :
    on = type ∧ ((sub = none ∧ .leaf f ∈ sel) ∨ ∃ pos below, sub = some below ∧ .node f pos below ∈ sel) := by
  obtain ⟨sel', hp, hm⟩ := hs
  obtain ⟨rfl, rfl⟩ := h.part hp
  exact ⟨rfl, hm⟩

theorem Plain.same {sel : List Selection} (h : Plain sel) {type on on' : Str} {f f' : Field} {sub sub' : Option (List Selection)}
    (hs : Selects fragments type sel on f sub) (hs' : Selects fragments type sel on' f' sub') (hn : responseName f = responseName f') :
    on = on' ∧ sub = sub' := by
  obtain ⟨rfl, h1⟩ := h.selects hs
  obtain ⟨rfl, h2⟩ := h.selects hs'
  refine ⟨rfl, ?_⟩
  cases h with
  | mk _ _ _ _ _ _ hsame honce =>
    have e : f = f' := by
      refine hsame f f' ?_ ?_ hn
      · rcases h1 with ⟨_, h⟩ | ⟨pos, below, _, h⟩
        · exact .inl h
        · exact .inr ⟨pos, below, h⟩
      · rcases h2 with ⟨_, h⟩ | ⟨pos, below, _, h⟩
        · exact .inl h
        · exact .inr ⟨pos, below, h⟩
    subst e
    rcases h1 with ⟨rfl, h1⟩ | ⟨pos, below, rfl, h1⟩ <;> rcases h2 with ⟨rfl, h2⟩ | ⟨pos', below', rfl, h2⟩
    · rfl
    · exact absurd h1 (honce _ _ _ h2).1
    · exact absurd h2 (honce _ _ _ h1).1
    · rw [(honce _ _ _ h1).2 _ _ h2]

theorem Plain.under {type : Str} {sel : List Selection} (h : Plain sel) {type' : Str} {sel' : List Selection}
    (hb : Below S fragments type sel type' sel') : Plain sel' := by
  induction hb with
  | self => exact h
  | field _ hs _ _ ih =>
    obtain ⟨_, ⟨h1, _⟩ | ⟨pos, below, h1, h2⟩⟩ := ih.selects hs
    · cases h1
    · cases h1
      cases ih with
      | mk _ _ _ hsub _ _ _ _ => exact hsub _ _ _ h2

theorem Plain.nonEmpty {sel : List Selection} (h : Plain sel) : NonEmpty sel := by
  induction h with
  | mk hne _ _ _ _ hi _ _ ih => exact .mk hne ih (fun _ _ _ _ hm => absurd hm (hi _ _ _ _))

theorem Plain.conditional {sel : List Selection} (h : Plain sel) {ds : Option (List Directive)} (hw : Written fragments sel ds) :
    Conditional ds := by
  induction h with
  | mk hne hl hn _ hs hi _ _ ih =>
    cases hw with
    | leaf hm => rw [(hl _ hm).directives]; nofun
    | nodeHere hm => rw [(hn _ _ _ hm).directives]; nofun
    | node hm h => exact ih _ _ _ hm h
    | spreadHere hm => exact absurd hm (hs _ _ _)
    | spread hm _ _ => exact absurd hm (hs _ _ _)
    | inlineHere hm => exact absurd hm (hi _ _ _ _)
    | inline hm _ => exact absurd hm (hi _ _ _ _)

theorem Plain.variables {sel : List Selection} (h : Plain sel) {v : Str} : ¬ InSelections fragments sel v := by
  induction h with
  | mk hne hl hn _ hs hi _ _ ih =>
    intro h
    cases h with
    | leafArguments hm h => exact (hl _ hm).arguments v h
    | leafDirectives hm h => rw [(hl _ hm).directives] at h; obtain ⟨_, hd, _⟩ := h; cases hd
    | nodeArguments hm h => exact (hn _ _ _ hm).arguments v h
    | nodeDirectives hm h => rw [(hn _ _ _ hm).directives] at h; obtain ⟨_, hd, _⟩ := h; cases hd
    | node hm h => exact ih _ _ _ hm h
    | inlineDirectives hm _ => exact absurd hm (hi _ _ _ _)
    | inline hm _ => exact absurd hm (hi _ _ _ _)
    | spreadDirectives hm _ => exact absurd hm (hs _ _ _)
    | spread hm _ _ => exact absurd hm (hs _ _ _)

/-- A document with one operation. -/
def single (sel : List Selection) : Document := ⟨[.operation { pos := {}, type := some (str "query"), sub := sel }]⟩

theorem Plain.accepted {sel : List Selection} (h : Plain sel) {overflow : Int → Int} (hc : Schema.Closed S) (hi : Implements S)
    (hs : Sound.Standard S) {root : Str} (hr : S.operationType (str "query") = some root)
    (ha : (Validation.validate S overflow (single sel) {}).1 = []) :
    Accepted S overflow (single sel) { pos := {}, type := some (str "query"), sub := sel } root where
  closed := hc
  implements := hi
  standard := hs
  wellFormed := by
    intro op hop d hd
    simp only [single, Document.operations, List.filterMap_cons, List.filterMap_nil, List.mem_singleton] at hop
    subst hop
    cases hd
  operationsNonEmpty := by
    intro op hop
    simp only [single, Document.operations, List.filterMap_cons, List.filterMap_nil, List.mem_singleton] at hop
    subst hop
    exact h.nonEmpty
  fragmentsNonEmpty := by
    intro f hf
    simp [single, Document.fragments] at hf
  accepted := ha
  operation := by simp [single, Document.operations]
  rootType := hr
  consistent := fun type' sel' hb on f sub hs on' f' sub' hs' hn => ((h.under hb).same hs' hs hn).2
  shared := fun type' sel' hb on f sub on' f' sub' hs hs' hn hne => absurd ((h.under hb).same hs hs' hn).1 hne
  conditional := fun ds hw => h.conditional hw

theorem Plain.supplied {sel : List Selection} (h : Plain sel) :
    Supplied S (single sel) { pos := {}, type := some (str "query"), sub := sel } [] where
  declared := by
    rintro v (hv | ⟨d, hd, _⟩)
    · exact absurd hv h.variables
    · cases hd
  values := fun d hd => by cases hd
  required := fun d hd => by cases hd
  constants := fun d hd => by cases hd
  definitions := fun f hf => by simp [single, Document.fragments] at hf

/-- A schema without interfaces and unions. -/
theorem implements_plain (h : ∀ n t, S.find n = some t → t.kind ≠ .interface ∧ t.kind ≠ .union) : Implements S := by
  have hm : ∀ {type object}, object ∈ S.matching type → object = type ∧ S.kind type = some .object := by
    intro type object hm
    unfold Validation.Schema.matching at hm
    unfold Validation.Schema.kind
    cases hf : S.find type with
    | none => rw [hf] at hm; cases hm
    | some t =>
      rw [hf] at hm
      obtain ⟨h1, h2⟩ := h type t hf
      cases hk : t.kind <;> simp only [hk] at hm h1 h2
      case object => exact ⟨by simpa using hm, by simp [hk]⟩
      case interface => exact absurd rfl h1
      case union => exact absurd rfl h2
      all_goals cases hm
  refine ⟨fun type object ho => ?_, fun type object name def_ ho hf => ?_⟩
  · obtain ⟨rfl, h⟩ := hm ho; exact h
  · obtain ⟨rfl, _⟩ := hm ho
    exact ⟨def_, hf, Sound.Examples.subtype_refl _, fun arg a ha => ⟨a, ha, rfl, id⟩, fun arg b hb hr hd => ⟨b, hb, hr, hd⟩⟩

end Verif.Intro
