import Verif.Sound.Sets
import Verif.Exec.SelectionProps
import Mathlib.Tactic.Choose

/-!
# Executing the selection sets of accepted operations
-/
namespace Verif.Sound
open Verif.Value Verif.Resp Verif.Errors Verif.Ast Verif.Exec
open Verif.Validation (Schema FieldDef InputValue baseName findArgument findValue VariableTypes Location)
open Verif.Validation.Spec
open Verif.Request (FragmentMap)
open Verif.Request.Spec (Expands ExpandsAll firstFragment)
open Verif.Gen.Client (Flat Selected NoDuplicates Answers)
open Verif.Json.Spec (normalize normalizeEntries normalizeList)

variable {S : Schema} {fragments : List FragmentDef}

/-! ## Expanded selections -/

theorem expandsAll_nil_left {m : FragmentMap} {xs : List XSelection} (h : ExpandsAll m [] xs) : xs = [] := by
  cases xs with
  | nil => rfl
  | cons x xs => have := h.1; simp at this

theorem expandsAll_cons {m : FragmentMap} {s : Selection} {ss : List Selection} {xs : List XSelection}
    (h : ExpandsAll m (s :: ss) xs) : ∃ x rest, xs = x :: rest ∧ Expands m s x ∧ ExpandsAll m ss rest := by
  cases xs with
  | nil => have := h.1; simp at this
  | cons x rest =>
    refine ⟨x, rest, rfl, h.2 0 s x rfl rfl, by have := h.1; simpa using this, fun i s' x' h1 h2 => ?_⟩
    exact h.2 (i + 1) s' x' (by simpa using h1) (by simpa using h2)

/-- The fragments which the spreads stand for are those of the document. -/
def Defines (fragments : List FragmentDef) (m : FragmentMap) : Prop :=
  ∀ name fragment, fragments.find? (fun f => f.name == name) = some fragment →
    ∃ f, m.find name = some f ∧ f.sub = fragment.sub ∧ f.info.type = fragment.typeCondition

theorem collected_defines {env : Env} {m : FragmentMap} (h : Request.collectFragments env fragments [] = .ok m) :
    Defines fragments m := by
  intro name fragment hf
  have := Request.C22_fragments h name
  unfold firstFragment at this
  rw [hf] at this
  obtain ⟨ds, _, hm⟩ := this
  exact ⟨_, hm, rfl, rfl⟩

/-- What a visited field is: one which is selected, on a type of the object. -/
def Comes (S : Schema) (fragments : List FragmentDef) (m : FragmentMap) (type : Str) (sel : List Selection) (object : Str)
    (size : Nat) (v : Visit) : Prop :=
  ∃ on sub, Selects fragments type sel on v.field sub ∧ object ∈ S.matching on ∧
    match v.sub, sub with
    | none, none => True
    | some (_, xs), some ss => ExpandsAll m ss xs ∧ sizeOf xs < size
    | _, _ => False

theorem Comes.mono {m : FragmentMap} {type : Str} {sel : List Selection} {object : Str} {a b : Nat} (hab : a ≤ b) {v : Visit}
    (h : Comes S fragments m type sel object a v) : Comes S fragments m type sel object b v := by
  obtain ⟨on, sub, h1, h2, h3⟩ := h
  refine ⟨on, sub, h1, h2, ?_⟩
  cases hv : v.sub with
  | none => rw [hv] at h3; cases sub <;> exact h3
  | some p =>
    rw [hv] at h3
    cases sub with
    | none => exact h3
    | some ss => exact ⟨h3.1, Nat.lt_of_lt_of_le h3.2 hab⟩

mutual
theorem flatten1_comes {m : FragmentMap} (hm : Defines fragments m) {env : Env} {type : Str} {sel : List Selection}
    (hok : SetOk S fragments env type sel) {object : Str} {types : Str → Bool}
    (ht : ∀ name, types name = true → object ∈ S.matching name) (path : Option FieldPath) :
    (x : XSelection) → ∀ (s : Selection) (on : Str) (sel' : List Selection) (dirs : FragDirs), Expands m s x →
      Part fragments type sel on sel' → s ∈ sel' → object ∈ S.matching on →
      (flatten1 types env path x dirs).2 = none ∧
      ∀ v ∈ (flatten1 types env path x dirs).1, Comes S fragments m type sel object (sizeOf x) v
  | .leaf f, s, on, sel', dirs, hx, hp, hs, ho => by
    cases hx
    refine ⟨rfl, fun v hv => ?_⟩
    simp only [flatten1, List.mem_singleton] at hv
    subst hv
    exact ⟨on, none, ⟨sel', hp, .inl ⟨rfl, hs⟩⟩, ho, trivial⟩
  | .node f pos xs, s, on, sel', dirs, hx, hp, hs, ho => by
    cases hx with
    | node _ _ sub _ hlen h =>
      refine ⟨rfl, fun v hv => ?_⟩
      simp only [flatten1, List.mem_singleton] at hv
      subst hv
      exact ⟨on, some sub, ⟨sel', hp, .inr ⟨pos, sub, rfl, hs⟩⟩, ho, ⟨hlen, h⟩, by simp; omega⟩
  | .unknownSpread pos name, s, on, sel', dirs, hx, hp, hs, ho => by
    cases hx with
    | unknown _ _ ds h =>
      obtain ⟨⟨fragment, hf⟩, _⟩ := hok.spread _ _ hp _ _ _ hs
      obtain ⟨f, hf', _⟩ := hm _ _ hf
      rw [hf'] at h
      cases h
  | .spread info ds xs, s, on, sel', dirs, hx, hp, hs, ho => by
    cases hx with
    | spread pos name _ f _ hf hlen h =>
      obtain ⟨⟨fragment, hfind⟩, b, hb⟩ := hok.spread _ _ hp _ _ _ hs
      obtain ⟨f', hf', hsub, htype⟩ := hm _ _ hfind
      rw [hf] at hf'
      cases hf'
      rw [flatten1]
      by_cases hty : types f.info.type = true
      · rw [if_pos hty, hb]
        cases b with
        | true => exact ⟨rfl, by simp⟩
        | false =>
          have := flatten_comes hm hok ht path xs f.sub fragment.typeCondition fragment.sub {
              definition := mergeOuter f.info.directives dirs.definition
              spread := mergeOuter (directivesOf env ds) dirs.spread
              inline := dirs.inline } ⟨hlen, h⟩
            (hp.spread_last hs hfind) (by rw [hsub]; exact List.Subset.refl _) (by rw [← htype]; exact ht _ hty)
          exact ⟨this.1, fun v hv => (this.2 v hv).mono (by simp)⟩
      · rw [if_neg hty]
        exact ⟨rfl, by simp⟩
  | .inline t ds xs, s, on, sel', dirs, hx, hp, hs, ho => by
    cases hx with
    | inline pos _ _ sub _ hlen h =>
      obtain ⟨b, hb⟩ := hok.inline _ _ hp _ _ _ _ hs
      rw [flatten1, hb]
      cases b with
      | true => exact ⟨rfl, by simp⟩
      | false =>
        by_cases hty : t.all types = true
        · simp only [if_pos hty]
          have hon : object ∈ S.matching (if t.getD [] = [] then on else t.getD []) := by
            cases t with
            | none => exact ho
            | some name =>
              simp only [Option.getD_some]
              split
              · exact ho
              · exact ht _ (by simpa using hty)
          have := flatten_comes hm hok ht path xs sub _ sub {
              definition := dirs.definition
              spread := dirs.spread
              inline := mergeOuter (directivesOf env ds) dirs.inline } ⟨hlen, h⟩ (hp.inline_last hs)
            (List.Subset.refl _) hon
          exact ⟨this.1, fun v hv => (this.2 v hv).mono (by simp)⟩
        · simp only [if_neg hty]
          exact ⟨trivial, by simp⟩
theorem flatten_comes {m : FragmentMap} (hm : Defines fragments m) {env : Env} {type : Str} {sel : List Selection}
    (hok : SetOk S fragments env type sel) {object : Str} {types : Str → Bool}
    (ht : ∀ name, types name = true → object ∈ S.matching name) (path : Option FieldPath) :
    (xs : List XSelection) → ∀ (ss : List Selection) (on : Str) (sel' : List Selection) (dirs : FragDirs), ExpandsAll m ss xs →
      Part fragments type sel on sel' → ss ⊆ sel' → object ∈ S.matching on →
      (flatten types env path xs dirs).2 = none ∧
      ∀ v ∈ (flatten types env path xs dirs).1, Comes S fragments m type sel object (sizeOf xs) v
  | [], ss, on, sel', dirs, hx, hp, hs, ho => ⟨rfl, by simp [flatten]⟩
  | x :: xs, ss, on, sel', dirs, hx, hp, hs, ho => by
    cases ss with
    | nil => have := hx.1; simp at this
    | cons s ss =>
      obtain ⟨x', xs', e, hx1, hx2⟩ := expandsAll_cons hx
      cases e
      have h1 := flatten1_comes hm hok ht path x s on sel' dirs hx1 hp (hs List.mem_cons_self) ho
      have h2 := flatten_comes hm hok ht path xs ss on sel' dirs hx2 hp (fun a ha => hs (List.mem_cons_of_mem _ ha)) ho
      rw [flatten]
      cases hf : flatten1 types env path x dirs with
      | mk vs e =>
        rw [hf] at h1
        obtain ⟨rfl, h1⟩ := h1
        refine ⟨h2.1, fun v hv => ?_⟩
        rcases List.mem_append.mp hv with hv | hv
        · exact (h1 v hv).mono (by simp; omega)
        · exact (h2.2 v hv).mono (by simp)
end

/-! ## The fields in the order of the text -/

mutual
theorem flat1_exists {m : FragmentMap} (hm : Defines fragments m) {env : Env} {type : Str} {sel : List Selection}
    (hok : SetOk S fragments env type sel) :
    (x : XSelection) → ∀ (s : Selection) (on : Str) (sel' : List Selection), Expands m s x →
      Part fragments type sel on sel' → s ∈ sel' → ∀ rest os, Flat fragments on rest os → ∃ os', Flat fragments on (s :: rest) os'
  | .leaf f, s, on, sel', hx, hp, hs => by cases hx; exact fun rest os h => ⟨_, .leaf h⟩
  | .node f pos xs, s, on, sel', hx, hp, hs => by cases hx; exact fun rest os h => ⟨_, .node h⟩
  | .unknownSpread pos name, s, on, sel', hx, hp, hs => by
    cases hx with
    | unknown _ _ ds h =>
      obtain ⟨⟨fragment, hf⟩, _⟩ := hok.spread _ _ hp _ _ _ hs
      obtain ⟨f, hf', _⟩ := hm _ _ hf
      rw [hf'] at h
      cases h
  | .spread info ds xs, s, on, sel', hx, hp, hs => by
    cases hx with
    | spread pos name _ f _ hf hlen h =>
      obtain ⟨⟨fragment, hfind⟩, b, hb⟩ := hok.spread _ _ hp _ _ _ hs
      obtain ⟨f', hf', hsub, htype⟩ := hm _ _ hfind
      rw [hf] at hf'
      cases hf'
      intro rest os hrest
      obtain ⟨os', h'⟩ := flat_exists hm hok xs f.sub fragment.typeCondition fragment.sub ⟨hlen, h⟩
        (hp.spread_last hs hfind) (by rw [hsub]; exact List.Subset.refl _)
      rw [hsub] at h'
      exact ⟨_, .spread hfind h' hrest⟩
  | .inline t ds xs, s, on, sel', hx, hp, hs => by
    cases hx with
    | inline pos _ _ sub _ hlen h =>
      intro rest os hrest
      obtain ⟨os', h'⟩ := flat_exists hm hok xs sub _ sub ⟨hlen, h⟩ (hp.inline_last hs) (List.Subset.refl _)
      exact ⟨_, .inline h' hrest⟩
theorem flat_exists {m : FragmentMap} (hm : Defines fragments m) {env : Env} {type : Str} {sel : List Selection}
    (hok : SetOk S fragments env type sel) :
    (xs : List XSelection) → ∀ (ss : List Selection) (on : Str) (sel' : List Selection), ExpandsAll m ss xs →
      Part fragments type sel on sel' → ss ⊆ sel' → ∃ os, Flat fragments on ss os
  | [], ss, on, sel', hx, hp, hs => by
    cases ss with
    | nil => exact ⟨_, .nil⟩
    | cons s ss => have := hx.1; simp at this
  | x :: xs, ss, on, sel', hx, hp, hs => by
    cases ss with
    | nil => exact ⟨_, .nil⟩
    | cons s ss =>
      obtain ⟨x', xs', e, hx1, hx2⟩ := expandsAll_cons hx
      cases e
      obtain ⟨os, h⟩ := flat_exists hm hok xs ss on sel' hx2 hp (fun a ha => hs (List.mem_cons_of_mem _ ha))
      exact flat1_exists hm hok x s on sel' hx1 hp (hs List.mem_cons_self) ss os h
end

theorem flat_mem {type : Str} {sel : List Selection} {os : List Selected} (h : Flat fragments type sel os) {on : Str} {f : Field}
    {sub : Option (List Selection)} (hs : Selects fragments type sel on f sub) : ⟨on, f, sub⟩ ∈ os := by
  induction h with
  | nil => exact absurd hs Selects.nil_iff
  | leaf _ ih =>
    rcases Selects.cons_iff.mp hs with h | h
    · obtain ⟨rfl, rfl, rfl⟩ := Selects.leaf_iff.mp h
      exact List.mem_cons_self
    · exact List.mem_cons_of_mem _ (ih h)
  | node _ ih =>
    rcases Selects.cons_iff.mp hs with h | h
    · obtain ⟨rfl, rfl, rfl⟩ := Selects.node_iff.mp h
      exact List.mem_cons_self
    · exact List.mem_cons_of_mem _ (ih h)
  | spread hf _ _ ih1 ih2 =>
    rcases Selects.cons_iff.mp hs with h | h
    · exact List.mem_append_left _ (ih1 ((Selects.spread_iff hf).mp h))
    · exact List.mem_append_right _ (ih2 h)
  | inline _ _ ih1 ih2 =>
    rcases Selects.cons_iff.mp hs with h | h
    · exact List.mem_append_left _ (ih1 (Selects.inline_iff.mp h))
    · exact List.mem_append_right _ (ih2 h)

/-! ## Execution -/

variable {E O : Type} {P : Str → Prop}

theorem firsts_subset (seen : List Str) (vs : List Visit) : firsts seen vs ⊆ vs := by
  induction vs generalizing seen with
  | nil => simp [firsts]
  | cons v vs ih =>
    rw [firsts]
    split
    · exact fun x hx => List.mem_cons_of_mem _ (ih _ hx)
    · intro x hx
      rcases List.mem_cons.mp hx with rfl | hx
      · exact List.mem_cons_self
      · exact List.mem_cons_of_mem _ (ih _ hx)

theorem starts_exist {I : Impl E O} {env : Env} {o : O} {params : SetParams} {Q : Visit → Fut E → Prop} (vs : List Visit) :
    (∀ v ∈ vs, ∃ r, (start I env o params v).result = .ok r ∧ ∀ f, r = some f → Q v f) →
    ∃ vals, (starts I env o params vs).result = .ok vals ∧ ∀ x ∈ vals, ∃ v ∈ vs, v.name = x.1 ∧ Q v x.2 := by
  induction vs with
  | nil => exact fun _ => ⟨[], rfl, by simp⟩
  | cons v vs ih =>
    intro h
    obtain ⟨r, h1, h2⟩ := h v List.mem_cons_self
    obtain ⟨vals, h3, h4⟩ := ih fun v hv => h v (List.mem_cons_of_mem _ hv)
    refine ⟨_, Run.bind_eq_ok.mpr ⟨r, h1, Run.bind_eq_ok.mpr ⟨vals, h3, rfl⟩⟩, ?_⟩
    intro x hx
    rcases List.mem_append.mp hx with hx | hx
    · cases r with
      | none => simp at hx
      | some f =>
        simp only [Option.map_some, Option.toList_some, List.mem_singleton] at hx
        subst hx
        exact ⟨v, List.mem_cons_self, rfl, h2 f rfl⟩
    · obtain ⟨w, hw, h5⟩ := h4 x hx
      exact ⟨w, List.mem_cons_of_mem _ hw, h5⟩

/-- Choosing the fields of the members of an object. -/
theorem answers_object {type : Str} {sel : List Selection} {os : List Selected} {members : Members}
    (hc : S.isComposite type = true) (hflat : Flat fragments type sel os) (hn : (members.map (·.1)).Nodup)
    (h : ∀ m ∈ members, ∃ (o : Selected) (def_ : FieldDef), o ∈ os ∧ o.name = m.1 ∧ S.findField o.on o.field.name = some def_ ∧
      Answers S fragments def_.type o.sub m.2) : Answers S fragments (.named type) (some sel) (.map members) := by
  have : ∀ name, ∃ (o : Selected) (def_ : FieldDef), ∀ v, (name, v) ∈ members → o ∈ os ∧ o.name = name ∧
      S.findField o.on o.field.name = some def_ ∧ Answers S fragments def_.type o.sub v := by
    intro name
    by_cases hex : ∃ v, (name, v) ∈ members
    · obtain ⟨v, hv⟩ := hex
      obtain ⟨o, def_, h1, h2, h3, h4⟩ := h _ hv
      refine ⟨o, def_, fun w hw => ⟨h1, h2, h3, ?_⟩⟩
      have : w = v := by
        have h5 := List.inj_on_of_nodup_map hn hw hv rfl
        exact (Prod.mk.inj h5).2
      rw [this]
      exact h4
    · refine ⟨⟨[], ⟨{}, none, [], none, none⟩, none⟩, ⟨[], .named [], []⟩, fun v hv => absurd ⟨v, hv⟩ hex⟩
  choose o def_ hall using this
  exact .object hc hflat hn o def_ (fun name v hm => ⟨(hall name v hm).1, (hall name v hm).2.1, (hall name v hm).2.2.1⟩)
    fun name v hm => (hall name v hm).2.2.2

/-- Executing a selection set of an accepted operation. -/
theorem execute_yields {overflow : Int → Int} {doc : Document} {op : Operation} {root : Str} {env : Env}
    (h : Accepted S overflow doc op root) (hva : Assigned S doc op env.variables) {I : Impl E O} {typeOf : O → Str} (hI : Serves S I typeOf P)
    {m : FragmentMap} (hm : Defines doc.fragments m) : ∀ (n : Nat) (xs : List XSelection), sizeOf xs < n →
    ∀ {type : Str} {sel : List Selection}, Below S doc.fragments root op.sub type sel → ExpandsAll m sel xs →
    ∀ (o : O) (params : SetParams), typeOf o ∈ S.matching type →
    Yields P (fun v => Good S doc.fragments (.named type) (some sel) v ∧ normalize v ≠ .null) (execute I env o params xs).result := by
  intro n
  induction n with
  | zero => intro xs hn; cases hn
  | succ n ih =>
    intro xs hsize type sel hb hx o params ho
    have hok := accepted_set h hva hb
    have htypes : ∀ name, matchesType I o name = true → typeOf o ∈ S.matching name := by
      intro name hn
      exact hI.names o name (by simpa [matchesType] using hn)
    have hsel := flatten_comes hm hok htypes params.errorPath xs sel type sel {} hx .self (List.Subset.refl _) ho
    rw [execute_eq]
    refine Yields.bind (hI.begins o params) fun _ _ => ?_
    change Yields P _ (((starts I env o params (firsts [] (selected I env o params xs).1)).bind fun vals =>
      (finish (selected I env o params xs).2 vals).bind fun vals =>
      (I.endSet o params).bind fun _ => collectFields vals [] [])).result
    have hsel2 : (selected I env o params xs).2 = none := hsel.1
    have hsel1 : ∀ v ∈ (selected I env o params xs).1, Comes S doc.fragments m type sel (typeOf o) (sizeOf xs) v := hsel.2
    clear hsel
    have hstart : ∀ v ∈ firsts [] (selected I env o params xs).1, ∃ r, (start I env o params v).result = .ok r ∧
        ∀ f, r = some f → ∃ on sub def_, Selects doc.fragments type sel on v.field sub ∧
          S.findField on v.field.name = some def_ ∧ Yields P (Good S doc.fragments def_.type sub) f.result := by
      intro v hv
      obtain ⟨on, sub, hs, hon, hmatch⟩ := hsel1 v (firsts_subset _ _ hv)
      obtain ⟨def_, hd, ⟨b, hb'⟩, ⟨args, ha, hargs⟩, hiff⟩ := hok.field _ _ _ hs
      have hcont : Continues S I typeOf P doc.fragments sub (baseName def_.type)
          (v.sub.map fun s => (s.1, visitAll I env s.2)) := by
        cases hv : v.sub with
        | none =>
          rw [hv] at hmatch
          cases sub with
          | some ss => exact hmatch.elim
          | none => exact ⟨fun _ => rfl, fun hc => by simp [hc] at hiff⟩
        | some p =>
          rw [hv] at hmatch
          cases sub with
          | none => exact hmatch.elim
          | some ss =>
            refine ⟨fun hc => by simp [hc] at hiff, fun _ => ⟨p.1, visitAll I env p.2, rfl, fun o' set ho' => ?_⟩⟩
            exact ih p.2 (Nat.lt_of_lt_of_le hmatch.2 (Nat.le_of_lt_succ hsize))
              (.field hb hs (h.consistent _ _ hb _ _ _ hs) hd) hmatch.1 o' set ho'
      obtain ⟨r, h1, h2⟩ := start_yields (params := params) hI h.implements hon hd hb' ha hargs hcont
      exact ⟨r, h1, fun f hf => ⟨on, sub, def_, hs, hd, h2 f hf⟩⟩
    obtain ⟨vals, hvals, hall⟩ := starts_exist _ hstart
    have hnodup := starts_nodup _ hvals
    rw [(Run.bind_result_ok hvals).1, hsel2]
    simp only [finish, Run.pure_bind]
    refine Yields.bind (hI.ends o params) fun _ _ => ?_
    rw [collectFields_eq _ _ _ (by simpa using hnodup)]
    have hno : ((vals.map fun x => (x.1, dataOf x.2.result)).map (·.1)).Nodup := by
      simpa [List.map_map, Function.comp_def] using hnodup
    refine ⟨fun e he => ?_, fun herr => ⟨⟨?_, .map ?_ ?_, ?_⟩, by simp [normalize]⟩⟩
    · simp only [List.nil_append, List.mem_flatMap] at he
      obtain ⟨x, hx, he⟩ := he
      obtain ⟨v, _, _, on, sub, def_, _, _, hy⟩ := hall x hx
      exact (hy.errors x.1).1 e he
    · simp only [List.nil_append, List.flatMap_eq_nil_iff] at herr
      obtain ⟨os, hos⟩ := flat_exists hm hok xs sel type sel hx .self (List.Subset.refl _)
      refine answers_object (accepted_composite h hb) hos hno ?_
      intro mem hmem
      obtain ⟨x, hx, rfl⟩ := List.mem_map.mp hmem
      obtain ⟨v, _, hname, on, sub, def_, hs, hd, hy⟩ := hall x hx
      exact ⟨⟨on, v.field, sub⟩, def_, flat_mem hos hs, hname, hd, ((hy.errors x.1).2 (herr x hx)).1⟩
    · exact hno
    · simp only [List.nil_append, List.flatMap_eq_nil_iff] at herr ⊢
      intro mem hmem
      obtain ⟨x, hx, rfl⟩ := List.mem_map.mp hmem
      obtain ⟨v, _, hname, on, sub, def_, hs, hd, hy⟩ := hall x hx
      exact ((hy.errors x.1).2 (herr x hx)).2.1
    · simp only [List.nil_append, List.flatMap_eq_nil_iff] at herr ⊢
      obtain ⟨os, hos⟩ := flat_exists hm hok xs sel type sel hx .self (List.Subset.refl _)
      rw [normalize, normalizeEntries_eq]
      refine answers_object (accepted_composite h hb) hos (by simpa [List.map_map, Function.comp_def] using hnodup) ?_
      intro mem hmem
      rw [List.map_map] at hmem
      obtain ⟨x, hx, rfl⟩ := List.mem_map.mp hmem
      obtain ⟨v, _, hname, on, sub, def_, hs, hd, hy⟩ := hall x hx
      exact ⟨⟨on, v.field, sub⟩, def_, flat_mem hos hs, hname, hd, ((hy.errors x.1).2 (herr x hx)).2.2⟩

end Verif.Sound
