import Verif.Gen.LoadedSpec
import Verif.Gen.ResponseClaims
import Verif.Gen.LoaderProps

/-!
# What clientgen collects from a request (C69)
-/
namespace Verif.Gen.Client
open Verif.Value Verif.Resp Verif.Errors Verif.Ast Verif.Modifiers
open Verif.Validation (Schema baseName)
open Verif.Validation.Spec (WellFormedDocument Valid declared Fits)

variable {S : Schema}

/-! ## Enums and input types -/

/-- Nothing is lost. -/
structure Grows (r r' : Referenced) : Prop where
  inputTypes : ∀ n ∈ r.inputTypes, n ∈ r'.inputTypes
  enums : ∀ n ∈ r.enums, n ∈ r'.enums

theorem Grows.refl (r : Referenced) : Grows r r := ⟨fun _ h => h, fun _ h => h⟩

theorem Grows.trans {a b c : Referenced} (h : Grows a b) (h' : Grows b c) : Grows a c :=
  ⟨fun n hn => h'.1 n (h.1 n hn), fun n hn => h'.2 n (h.2 n hn)⟩

theorem collectEnum_inputTypes (type : Str) (r : Referenced) : (collectEnum S type r).inputTypes = r.inputTypes := by
  unfold collectEnum
  split
  · split <;> rfl
  · rfl

theorem collectEnum_mem (type : Str) (r : Referenced) (n : Str) :
    n ∈ (collectEnum S type r).enums ↔ n ∈ r.enums ∨ (n = type ∧ S.kind n = some .enum) := by
  unfold collectEnum
  split
  · rename_i h
    split
    · rename_i h'
      constructor
      · exact .inl
      · rintro (h'' | ⟨rfl, _⟩)
        · exact h''
        · exact h'
    · simp only [List.mem_append, List.mem_singleton]
      constructor
      · rintro (h'' | rfl)
        · exact .inl h''
        · exact .inr ⟨rfl, h⟩
      · rintro (h'' | ⟨rfl, _⟩)
        · exact .inl h''
        · exact .inr rfl
  · rename_i h
    constructor
    · exact .inl
    · rintro (h'' | ⟨rfl, h''⟩)
      · exact h''
      · exact absurd h'' h

theorem collectEnum_nodup (type : Str) {r : Referenced} (h : r.enums.Nodup) : (collectEnum S type r).enums.Nodup := by
  unfold collectEnum
  split
  · split
    · exact h
    · rename_i h'
      rw [List.nodup_append]
      exact ⟨h, by simp, by rintro a ha b hb rfl; simp at hb; subst hb; exact h' ha⟩
  · exact h

theorem collectEnum_grows (type : Str) (r : Referenced) : Grows r (collectEnum S type r) :=
  ⟨fun n hn => by rw [collectEnum_inputTypes]; exact hn, fun n hn => (collectEnum_mem type r n).2 (.inl hn)⟩

/-- What has been collected for `type`: everything which is new can be reached, and everything which can be reached from
something new (or from `type`) in one step is there. -/
structure Collects (S : Schema) (type : Str) (r r' : Referenced) : Prop where
  grows : Grows r r'
  self : S.kind type = some .inputObject → type ∈ r'.inputTypes
  inputTypes : ∀ n ∈ r'.inputTypes, n ∈ r.inputTypes ∨
    (S.kind n = some .inputObject ∧ Relation.ReflTransGen (HasField S) type n)
  enums : ∀ n ∈ r'.enums, n ∈ r.enums ∨ (S.kind n = some .enum ∧ Relation.ReflTransGen (HasField S) type n)
  closed : ∀ n ∈ r'.inputTypes, n ∉ r.inputTypes → ∀ m, HasField S n m →
    (S.kind m = some .inputObject → m ∈ r'.inputTypes) ∧ (S.kind m = some .enum → m ∈ r'.enums)
  nodupInputTypes : r.inputTypes.Nodup → r'.inputTypes.Nodup
  nodupEnums : r.enums.Nodup → r'.enums.Nodup

theorem kind_find {n : Str} {k : Validation.Kind} (h : S.kind n = some k) : ∃ t, S.find n = some t ∧ t.kind = k := by
  unfold Schema.kind at h
  cases hf : S.find n with
  | none => rw [hf] at h; cases h
  | some t => rw [hf] at h; exact ⟨t, rfl, Option.some.inj h⟩

theorem collectInputTypes_collects (depth : Nat) : ∀ (type : Str) (r r' : Referenced),
    collectInputTypes S depth type r = some r' → Collects S type r r' := by
  induction depth with
  | zero => intro type r r' h; cases h
  | succ depth ih =>
    intro type r r' h
    unfold collectInputTypes at h
    split at h
    swap
    · cases h
      rename_i hk
      exact ⟨.refl _, fun h => absurd h hk, fun n h => .inl h, fun n h => .inl h, fun n h h' => absurd h h', id, id⟩
    rename_i hk
    split at h
    · cases h
      rename_i hin
      exact ⟨.refl _, fun _ => hin, fun n h => .inl h, fun n h => .inl h, fun n h h' => absurd h h', id, id⟩
    rename_i hin
    obtain ⟨t, ht, htk⟩ := kind_find hk
    rw [ht] at h
    simp only [Option.map_some, Option.getD_some] at h
    -- the loop over the fields
    have loop : ∀ (fields : List Validation.InputValue), (∀ f ∈ fields, f ∈ t.inputFields) → ∀ (r0 r1 : Referenced),
        fields.foldl (fun r field => (r.bind (collectInputTypes S depth (baseName field.type))).map
          (collectEnum S (baseName field.type))) (some r0) = some r1 →
        Grows r0 r1 ∧
        (∀ f ∈ fields, (S.kind (baseName f.type) = some .inputObject → baseName f.type ∈ r1.inputTypes) ∧
          (S.kind (baseName f.type) = some .enum → baseName f.type ∈ r1.enums)) ∧
        (∀ n ∈ r1.inputTypes, n ∈ r0.inputTypes ∨ (S.kind n = some .inputObject ∧ Relation.ReflTransGen (HasField S) type n)) ∧
        (∀ n ∈ r1.enums, n ∈ r0.enums ∨ (S.kind n = some .enum ∧ Relation.ReflTransGen (HasField S) type n)) ∧
        (∀ n ∈ r1.inputTypes, n ∉ r0.inputTypes → ∀ m, HasField S n m →
          (S.kind m = some .inputObject → m ∈ r1.inputTypes) ∧ (S.kind m = some .enum → m ∈ r1.enums)) ∧
        (r0.inputTypes.Nodup → r1.inputTypes.Nodup) ∧ (r0.enums.Nodup → r1.enums.Nodup) := by
      intro fields
      induction fields with
      | nil =>
        intro _ r0 r1 h
        cases h
        exact ⟨.refl _, nofun, fun n h => .inl h, fun n h => .inl h, fun n h h' => absurd h h', id, id⟩
      | cons f fields ihf =>
        intro hmem r0 r1 h
        simp only [List.foldl_cons, Option.bind_some] at h
        cases hc : collectInputTypes S depth (baseName f.type) r0 with
        | none =>
          rw [hc] at h
          simp only [Option.map_none] at h
          have : ∀ fs : List Validation.InputValue, fs.foldl (fun r field => (r.bind (collectInputTypes S depth (baseName field.type))).map
              (collectEnum S (baseName field.type))) none = none := by
            intro fs
            induction fs with
            | nil => rfl
            | cons _ _ ih => simpa using ih
          rw [this] at h
          cases h
        | some r2 =>
          rw [hc] at h
          simp only [Option.map_some] at h
          have hcol := ih _ _ _ hc
          obtain ⟨g, h1, h2, h3, h4, h5, h6⟩ := ihf (fun x hx => hmem x (List.mem_cons_of_mem _ hx)) _ _ h
          have hstep : HasField S type (baseName f.type) := ⟨t, ht, htk, f, hmem f List.mem_cons_self, rfl⟩
          have g02 : Grows r0 (collectEnum S (baseName f.type) r2) := hcol.grows.trans (collectEnum_grows _ _)
          refine ⟨g02.trans g, ?_, ?_, ?_, ?_, ?_, ?_⟩
          · intro x hx
            rcases List.mem_cons.1 hx with rfl | hx
            · refine ⟨fun hk' => g.1 _ ?_, fun hk' => g.2 _ ?_⟩
              · rw [collectEnum_inputTypes]; exact hcol.self hk'
              · exact (collectEnum_mem _ _ _).2 (.inr ⟨rfl, hk'⟩)
            · exact h1 x hx
          · intro n hn
            rcases h2 n hn with hn | hn
            · rw [collectEnum_inputTypes] at hn
              rcases hcol.inputTypes n hn with hn | ⟨a, b⟩
              · exact .inl hn
              · exact .inr ⟨a, .head hstep b⟩
            · exact .inr hn
          · intro n hn
            rcases h3 n hn with hn | hn
            · rcases (collectEnum_mem _ _ _).1 hn with hn | ⟨rfl, hk'⟩
              · rcases hcol.enums n hn with hn | ⟨a, b⟩
                · exact .inl hn
                · exact .inr ⟨a, .head hstep b⟩
              · exact .inr ⟨hk', .single hstep⟩
            · exact .inr hn
          · intro n hn hnot m hm
            by_cases hn2 : n ∈ (collectEnum S (baseName f.type) r2).inputTypes
            · rw [collectEnum_inputTypes] at hn2
              have := hcol.closed n hn2 hnot m hm
              have g2 := (collectEnum_grows (S := S) (baseName f.type) r2).trans g
              exact ⟨fun k => g2.1 _ (this.1 k), fun k => g2.2 _ (this.2 k)⟩
            · exact h4 n hn hn2 m hm
          · intro hnd
            exact h5 (by rw [collectEnum_inputTypes]; exact hcol.nodupInputTypes hnd)
          · intro hnd
            exact h6 (collectEnum_nodup _ (hcol.nodupEnums hnd))
    obtain ⟨g, h1, h2, h3, h4, h5, h6⟩ := loop t.inputFields (fun _ h => h) _ _ h
    refine ⟨⟨fun n hn => g.1 n (List.mem_append_left _ hn), g.2⟩, fun _ => g.1 _ (by simp), ?_, h3, ?_, ?_, h6⟩
    · intro n hn
      rcases h2 n hn with hn | hn
      · rcases List.mem_append.1 hn with hn | hn
        · exact .inl hn
        · rw [List.mem_singleton] at hn
          subst hn
          exact .inr ⟨hk, .refl⟩
      · exact .inr hn
    · intro n hn hnot m hm
      by_cases hnt : n = type
      · subst hnt
        obtain ⟨t', ht', _, f, hf, rfl⟩ := hm
        rw [ht] at ht'
        cases ht'
        exact h1 f hf
      · exact h4 n hn (by simp [hnot, hnt]) m hm
    · intro hnd
      refine h5 ?_
      rw [List.nodup_append]
      exact ⟨hnd, by simp, by rintro a ha b hb rfl; simp at hb; subst hb; exact hin ha⟩

/-- What has been collected before is closed: see `Collects`. -/
structure Complete (S : Schema) (r : Referenced) : Prop where
  closed : ∀ n ∈ r.inputTypes, ∀ m, HasField S n m →
    (S.kind m = some .inputObject → m ∈ r.inputTypes) ∧ (S.kind m = some .enum → m ∈ r.enums)
  nodupInputTypes : r.inputTypes.Nodup
  nodupEnums : r.enums.Nodup

theorem Collects.complete {type : Str} {r r' : Referenced} (h : Collects S type r r') (hr : Complete S r) : Complete S r' := by
  refine ⟨fun n hn m hm => ?_, h.nodupInputTypes hr.nodupInputTypes, h.nodupEnums hr.nodupEnums⟩
  by_cases hn' : n ∈ r.inputTypes
  · have := hr.closed n hn' m hm
    exact ⟨fun k => h.grows.1 _ (this.1 k), fun k => h.grows.2 _ (this.2 k)⟩
  · exact h.closed n hn hn' m hm

theorem Complete.collectEnum {r : Referenced} (hr : Complete S r) (type : Str) : Complete S (collectEnum S type r) := by
  refine ⟨fun n hn m hm => ?_, ?_, collectEnum_nodup _ hr.nodupEnums⟩
  · rw [collectEnum_inputTypes] at hn ⊢
    have := hr.closed n hn m hm
    exact ⟨this.1, fun k => (collectEnum_mem _ _ _).2 (.inl (this.2 k))⟩
  · rw [collectEnum_inputTypes]; exact hr.nodupInputTypes

theorem hasField_kind {a b : Str} (h : HasField S a b) : S.kind a = some .inputObject := by
  obtain ⟨t, ht, hk, _⟩ := h
  unfold Schema.kind
  rw [ht, Option.map_some, hk]

/-- What can be reached from a type which is there, is there. -/
theorem Complete.reaches {r : Referenced} (hr : Complete S r) {type n : Str} (h : Relation.ReflTransGen (HasField S) type n)
    (hi : S.kind type = some .inputObject → type ∈ r.inputTypes) (he : S.kind type = some .enum → type ∈ r.enums) :
    (S.kind n = some .inputObject → n ∈ r.inputTypes) ∧ (S.kind n = some .enum → n ∈ r.enums) := by
  induction h with
  | refl => exact ⟨hi, he⟩
  | tail _ hbc ih => exact hr.closed _ (ih.1 (hasField_kind hbc)) _ hbc

theorem fromVariables {depth : Nat} : ∀ (vs : List RequestVariable) (r r' : Referenced),
    collectFromVariables S depth vs r = some r' → Complete S r → Complete S r' ∧ Grows r r' ∧
      (∀ v ∈ vs, (S.kind v.type = some .inputObject → v.type ∈ r'.inputTypes) ∧ (S.kind v.type = some .enum → v.type ∈ r'.enums)) ∧
      (∀ n ∈ r'.inputTypes, n ∈ r.inputTypes ∨
        (S.kind n = some .inputObject ∧ ∃ v ∈ vs, Relation.ReflTransGen (HasField S) v.type n)) ∧
      (∀ n ∈ r'.enums, n ∈ r.enums ∨ (S.kind n = some .enum ∧ ∃ v ∈ vs, Relation.ReflTransGen (HasField S) v.type n)) := by
  intro vs
  induction vs with
  | nil =>
    intro r r' h hr
    cases h
    exact ⟨hr, .refl _, nofun, fun n h => .inl h, fun n h => .inl h⟩
  | cons v vs ih =>
    intro r r' h hr
    unfold collectFromVariables at h
    cases hc : collectInputTypes S depth v.type r with
    | none => rw [hc] at h; cases h
    | some r1 =>
      rw [hc] at h
      have hcol := collectInputTypes_collects depth _ _ _ hc
      obtain ⟨h1, g, h2, h3, h4⟩ := ih _ _ h ((hcol.complete hr).collectEnum v.type)
      have g1 := (collectEnum_grows (S := S) v.type r1)
      refine ⟨h1, (hcol.grows.trans g1).trans g, ?_, ?_, ?_⟩
      · intro x hx
        rcases List.mem_cons.1 hx with rfl | hx
        · exact ⟨fun k => g.1 _ (g1.1 _ (hcol.self k)), fun k => g.2 _ ((collectEnum_mem _ _ _).2 (.inr ⟨rfl, k⟩))⟩
        · exact h2 x hx
      · intro n hn
        rcases h3 n hn with hn | ⟨a, w, hw, b⟩
        · rw [collectEnum_inputTypes] at hn
          rcases hcol.inputTypes n hn with hn | ⟨a, b⟩
          · exact .inl hn
          · exact .inr ⟨a, v, List.mem_cons_self, b⟩
        · exact .inr ⟨a, w, List.mem_cons_of_mem _ hw, b⟩
      · intro n hn
        rcases h4 n hn with hn | ⟨a, w, hw, b⟩
        · rcases (collectEnum_mem _ _ _).1 hn with hn | ⟨rfl, k⟩
          · rcases hcol.enums n hn with hn | ⟨a, b⟩
            · exact .inl hn
            · exact .inr ⟨a, v, List.mem_cons_self, b⟩
          · exact .inr ⟨k, v, List.mem_cons_self, .refl⟩
        · exact .inr ⟨a, w, List.mem_cons_of_mem _ hw, b⟩

/-! ## The response -/

mutual
theorem fieldEnums : (f : ResponseField) → (r : Referenced) → (collectFieldEnums S f r).inputTypes = r.inputTypes ∧
    (r.enums.Nodup → (collectFieldEnums S f r).enums.Nodup) ∧
    (∀ n ∈ r.enums, n ∈ (collectFieldEnums S f r).enums) ∧
    (∀ n ∈ (collectFieldEnums S f r).enums, n ∈ r.enums ∨ (S.kind n = some .enum ∧ InResponse n [f])) ∧
    (ProperFields S [f] → ∀ n, S.kind n = some .enum → InResponse n [f] → n ∈ (collectFieldEnums S f r).enums)
  | .mk type ms name pos children, r => by
    have here : InResponse type [ResponseField.mk type ms name pos children] := .here List.mem_cons_self rfl
    unfold collectFieldEnums
    split
    · rename_i hk
      refine ⟨collectEnum_inputTypes _ _, collectEnum_nodup _, (collectEnum_grows _ _).2, ?_, ?_⟩
      · intro n hn
        rcases (collectEnum_mem _ _ _).1 hn with hn | ⟨rfl, hk⟩
        · exact .inl hn
        · exact .inr ⟨hk, here⟩
      · intro hp n hn hin
        obtain ⟨hp1, _⟩ := hp
        have hnil : children = [] := by
          by_contra hne
          have := hp1 _ List.mem_cons_self hne
          change S.isComposite type = true at this
          unfold Schema.isComposite at this
          rw [hk] at this
          cases this
        subst hnil
        cases hin with
        | here hf ht =>
          rw [List.mem_singleton] at hf
          subst hf
          subst ht
          exact (collectEnum_mem _ _ _).2 (.inr ⟨rfl, hn⟩)
        | deeper hf hb =>
          rw [List.mem_singleton] at hf
          subst hf
          cases hb with
          | here h _ => cases h
          | deeper h _ => cases h
    · rename_i hk
      split
      · rename_i hc
        obtain ⟨h1, h2, h3, h4, h5⟩ := allEnums children r
        refine ⟨h1, h2, h3, ?_, ?_⟩
        · intro n hn
          rcases h4 n hn with hn | ⟨a, b⟩
          · exact .inl hn
          · exact .inr ⟨a, .deeper List.mem_cons_self b⟩
        · intro hp n hn hin
          obtain ⟨_, hp2⟩ := hp
          cases hin with
          | here hf ht =>
            rw [List.mem_singleton] at hf
            subst hf
            subst ht
            exact absurd hn hk
          | deeper hf hb =>
            rw [List.mem_singleton] at hf
            subst hf
            exact h5 (hp2 _ List.mem_cons_self) n hn hb
      · rename_i hc
        refine ⟨rfl, id, fun n h => h, fun n h => .inl h, ?_⟩
        intro hp n hn hin
        obtain ⟨hp1, _⟩ := hp
        have hnil : children = [] := by
          by_contra hne
          exact hc (hp1 _ List.mem_cons_self hne)
        subst hnil
        cases hin with
        | here hf ht =>
          rw [List.mem_singleton] at hf
          subst hf
          subst ht
          exact absurd hn hk
        | deeper hf hb =>
          rw [List.mem_singleton] at hf
          subst hf
          cases hb with
          | here h _ => cases h
          | deeper h _ => cases h
theorem allEnums : (fs : List ResponseField) → (r : Referenced) → (collectAllEnums S fs r).inputTypes = r.inputTypes ∧
    (r.enums.Nodup → (collectAllEnums S fs r).enums.Nodup) ∧
    (∀ n ∈ r.enums, n ∈ (collectAllEnums S fs r).enums) ∧
    (∀ n ∈ (collectAllEnums S fs r).enums, n ∈ r.enums ∨ (S.kind n = some .enum ∧ InResponse n fs)) ∧
    (ProperFields S fs → ∀ n, S.kind n = some .enum → InResponse n fs → n ∈ (collectAllEnums S fs r).enums)
  | [], r => by
    unfold collectAllEnums
    refine ⟨rfl, id, fun n h => h, fun n h => .inl h, ?_⟩
    intro _ n _ hin
    cases hin with
    | here h _ => cases h
    | deeper h _ => cases h
  | f :: fs, r => by
    unfold collectAllEnums
    obtain ⟨a1, a2, a3, a4, a5⟩ := fieldEnums f r
    obtain ⟨b1, b2, b3, b4, b5⟩ := allEnums fs (collectFieldEnums S f r)
    refine ⟨b1.trans a1, fun h => b2 (a2 h), fun n h => b3 n (a3 n h), ?_, ?_⟩
    · intro n hn
      rcases b4 n hn with hn | ⟨k, b⟩
      · rcases a4 n hn with hn | ⟨k, b⟩
        · exact .inl hn
        · refine .inr ⟨k, ?_⟩
          cases b with
          | here h h' => exact .here (List.mem_cons.2 (.inl (List.mem_singleton.1 h))) h'
          | deeper h h' => exact .deeper (List.mem_cons.2 (.inl (List.mem_singleton.1 h))) h'
      · refine .inr ⟨k, ?_⟩
        cases b with
        | here h h' => exact .here (List.mem_cons_of_mem _ h) h'
        | deeper h h' => exact .deeper (List.mem_cons_of_mem _ h) h'
    · intro hp n hn hin
      obtain ⟨p1, p2⟩ := hp
      have pf : ProperFields S [f] := ⟨fun x hx => p1 x (by rw [List.mem_singleton] at hx; simp [hx]),
        fun x hx => p2 x (by rw [List.mem_singleton] at hx; simp [hx])⟩
      have pfs : ProperFields S fs := ⟨fun x hx => p1 x (List.mem_cons_of_mem _ hx), fun x hx => p2 x (List.mem_cons_of_mem _ hx)⟩
      cases hin with
      | here h h' =>
        rcases List.mem_cons.1 h with rfl | h
        · exact b3 _ (a5 pf n hn (.here List.mem_cons_self h'))
        · exact b5 pfs n hn (.here h h')
      | deeper h h' =>
        rcases List.mem_cons.1 h with rfl | h
        · exact b3 _ (a5 pf n hn (.deeper List.mem_cons_self h'))
        · exact b5 pfs n hn (.deeper h h')
end

end Verif.Gen.Client
