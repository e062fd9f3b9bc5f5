import Verif.Async.Props
import Verif.Sound.Claims

/-!
# Requests which the validator accepts, with threads

No selection set of an accepted request fails as a whole, unless a callback of the service throws. So everything C60 says holds in every
schedule, and the user code which runs is the same in all of them.
-/
namespace Verif.Async
open Verif.Value Verif.Resp Verif.Errors Verif.Ast Verif.Exec Verif.Request Verif.Sound
open Verif.Validation (Schema)
open Verif.Validation.Spec
open Verif.Request.Spec (Expands ExpandsAll)
open Verif.Gen.Client (Answers)

variable {S : Schema} {E O : Type} {P : Str → Prop}

theorem directives_evaluate {env : Env} {ds : Option (List Directive)} (h : ∃ b, skips env ds = .ok b) : DirectivesEvaluate env ds := by
  obtain ⟨b, h⟩ := h
  unfold skips at h
  split at h
  · cases h
  · rename_i ms hms
    exact ⟨ms, hms, b, h⟩

mutual
theorem accepted_evaluates {overflow : Int → Int} {doc : Document} {op : Operation} {root : Str} {env : Env}
    (h : Accepted S overflow doc op root) (hva : Assigned S doc op env.variables) {m : FragmentMap} (hm : Defines doc.fragments m) :
    (x : XSelection) → ∀ {type : Str} {sel : List Selection}, Below S doc.fragments root op.sub type sel →
      ∀ (s : Selection) (on : Str) (sel' : List Selection), Expands m s x → Validation.Spec.Part doc.fragments type sel on sel' → s ∈ sel' →
      Evaluates env x
  | .leaf f, type, sel, hb, s, on, sel', hx, hp, hs => by
    cases hx
    obtain ⟨def_, _, hsk, ⟨args, ha, _⟩, _⟩ := (accepted_set h hva hb).field on f none ⟨sel', hp, .inl ⟨rfl, hs⟩⟩
    rw [Evaluates]
    exact ⟨directives_evaluate hsk, args, ha⟩
  | .node f pos xs, type, sel, hb, s, on, sel', hx, hp, hs => by
    cases hx with
    | node _ _ sub _ hlen hx =>
      have hsel : Selects doc.fragments type sel on f (some sub) := ⟨sel', hp, .inr ⟨pos, sub, rfl, hs⟩⟩
      obtain ⟨def_, hd, hsk, ⟨args, ha, _⟩, _⟩ := (accepted_set h hva hb).field on f (some sub) hsel
      rw [Evaluates]
      exact ⟨⟨directives_evaluate hsk, args, ha⟩, accepted_evaluateAll h hva hm xs (.field hb hsel (h.consistent _ _ hb _ _ _ hsel) hd)
        sub _ sub ⟨hlen, hx⟩ .self (List.Subset.refl _)⟩
  | .unknownSpread pos name, type, sel, hb, s, on, sel', hx, hp, hs => by
    cases hx with
    | unknown _ _ ds hn =>
      obtain ⟨⟨fragment, hf⟩, _⟩ := (accepted_set h hva hb).spread _ _ hp _ _ _ hs
      obtain ⟨f, hf', _⟩ := hm _ _ hf
      rw [hf'] at hn
      cases hn
  | .spread info ds xs, type, sel, hb, s, on, sel', hx, hp, hs => by
    cases hx with
    | spread pos name _ f _ hf hlen hx =>
      obtain ⟨⟨fragment, hfind⟩, hsk⟩ := (accepted_set h hva hb).spread _ _ hp _ _ _ hs
      obtain ⟨f', hf', hsub, _⟩ := hm _ _ hfind
      rw [hf] at hf'
      cases hf'
      rw [Evaluates]
      exact ⟨directives_evaluate hsk, accepted_evaluateAll h hva hm xs hb f.sub _ fragment.sub ⟨hlen, hx⟩ (hp.spread_last hs hfind)
        (by rw [hsub]; exact List.Subset.refl _)⟩
  | .inline t ds xs, type, sel, hb, s, on, sel', hx, hp, hs => by
    cases hx with
    | inline pos _ _ sub _ hlen hx =>
      rw [Evaluates]
      exact ⟨directives_evaluate ((accepted_set h hva hb).inline _ _ hp _ _ _ _ hs),
        accepted_evaluateAll h hva hm xs hb sub _ sub ⟨hlen, hx⟩ (hp.inline_last hs) (List.Subset.refl _)⟩
theorem accepted_evaluateAll {overflow : Int → Int} {doc : Document} {op : Operation} {root : Str} {env : Env}
    (h : Accepted S overflow doc op root) (hva : Assigned S doc op env.variables) {m : FragmentMap} (hm : Defines doc.fragments m) :
    (xs : List XSelection) → ∀ {type : Str} {sel : List Selection}, Below S doc.fragments root op.sub type sel →
      ∀ (ss : List Selection) (on : Str) (sel' : List Selection), ExpandsAll m ss xs → Validation.Spec.Part doc.fragments type sel on sel' → ss ⊆ sel' →
      EvaluateAll env xs
  | [], type, sel, hb, ss, on, sel', hx, hp, hs => by rw [EvaluateAll]; trivial
  | x :: xs, type, sel, hb, ss, on, sel', hx, hp, hs => by
    cases ss with
    | nil => have := hx.1; simp at this
    | cons s ss =>
      obtain ⟨x', xs', e, hx1, hx2⟩ := expandsAll_cons hx
      cases e
      rw [EvaluateAll]
      exact ⟨accepted_evaluates h hva hm x hb s on sel' hx1 hp (hs List.mem_cons_self),
        accepted_evaluateAll h hva hm xs hb ss on sel' hx2 hp fun a ha => hs (List.mem_cons_of_mem _ ha)⟩
end

/-- **C65** No selection set of a request which the validator accepts fails as a whole, if no callback of the service throws. -/
theorem valid_sets {q : Call E O} {op : Operation} {root : Str} (h : Accepted S q.service.atoiOverflow q.doc op root)
    (hsup : Supplied S q.doc op q.supplied) (hname : Request.Spec.Selects q.doc.operations q.name op)
    (hsets : SetsSucceed q.service.impl) : q.SetsSucceed := by
  refine ⟨hsets, fun ready xs hp hx => ?_⟩
  obtain ⟨h1, _, h3, _, h5, _⟩ := Request.prepare_ok hp
  rw [Request.findOperation_some.mpr hname] at h3
  obtain rfl := Option.some.inj h3
  have hv := (Validation.C48_accepts_iff_valid h.closed h.wellFormed).mp h.accepted
  obtain ⟨_, hvars, _⟩ := hv.operations _ h.operation
  exact accepted_evaluateAll h (env := ⟨ready.variables, q.service.atoiOverflow⟩) (assigned hvars hsup h5).1 (collected_defines h1) xs .self
    _ _ _ (Request.expand_sound _ _ _ hx) .self (List.Subset.refl _)

theorem never_throws {x : Exn} (h : Throws (fun _ => False) x) : False := by
  cases x with
  | schema es =>
    obtain ⟨e, rest, rfl⟩ := List.exists_cons_of_ne_nil h.1
    exact h.2 e List.mem_cons_self
  | other what => exact (h []).1

/-- **C65** A request which the validator accepts, to a service for the schema which does not fail (C60), with any launch policy: in
every schedule the answer has no errors and answers the operation, and exactly the same user code runs as with
`std::launch::deferred`. -/
theorem valid_answer {q : Call E O} {typeOf : O → Str} (hS : ServiceFor S q.service typeOf fun _ => False) {op : Operation} {root : Str}
    (h : Accepted S q.service.atoiOverflow q.doc op root)
    (hfr : ∀ f ∈ q.doc.fragments, Consistent S q.doc.fragments f.typeCondition f.sub) (hsup : Supplied S q.doc op q.supplied)
    (hname : Request.Spec.Selects q.doc.operations q.name op) (hsub : op.type.getD (str "query") ≠ str "subscription")
    (launch : Launch) :
    ∃ run data, q.deferred = .done run ∧ Answers S q.doc.fragments (.named root) (some op.sub) data ∧ data ≠ .null ∧
      (∃ p, q.program launch = .done p) ∧
      ∀ t c, q.Reaches launch t c → (∃ t' d, Steps c t' d ∧ Answered d (.ok (.map [(str "data", data)]))) ∧
        ∀ r, Answered c r → r = .ok (.map [(str "data", data)]) ∧ run.trace.Perm (events t) := by
  obtain ⟨run, data, h1, h2, h3, h4, h5⟩ := C60_no_errors hS h hfr hsup hname hsub q.validated
  have hd : q.deferred = .done run := h1
  have hsets : SetsSucceed q.service.impl := by
    refine fun o params => ⟨?_, ?_⟩
    · cases hr : (q.service.impl.beginSet o params).result with
      | ok x => exact ⟨x, rfl⟩
      | error x => exact (never_throws (hS.serves.begins o params x hr)).elim
    · cases hr : (q.service.impl.endSet o params).result with
      | ok x => exact ⟨x, rfl⟩
      | error x => exact (never_throws (hS.serves.ends o params x hr)).elim
  refine ⟨run, data, hd, h3, h5, (defined_iff q launch).2 ⟨run, hd⟩, fun t c hr => ⟨h2 ▸ answer_comes hr hd, fun r ha => ?_⟩⟩
  exact ⟨(answer_same hr hd ha).trans h2, events_same hr hd ha (valid_sets h hsup hname hsets)⟩

end Verif.Async
