import Verif.Gen.LoadedProps
import Verif.Request.Model

/-!
# What clientgen collects from a request: the claims (C69)
-/
namespace Verif.Gen.Client
open Verif.Value Verif.Resp Verif.Errors Verif.Ast Verif.Modifiers
open Verif.Validation (Schema baseName)
open Verif.Validation.Spec (WellFormedDocument Valid declared Fits Required WellFormed VariablesOk)

variable {S : Schema}

/-! ## The depth is enough -/

/-- The number of types which are not among the input types yet. -/
def remaining (S : Schema) (r : Referenced) : Nat := (S.types.map (·.1)).countP fun n => decide (n ∉ r.inputTypes)

theorem countP_lt {α : Type} {p q : α → Bool} : ∀ {l : List α}, (∀ x, p x = true → q x = true) → ∀ {a : α}, a ∈ l → p a = false →
    q a = true → l.countP p < l.countP q := by
  intro l h
  induction l with
  | nil => intro a ha; cases ha
  | cons b l ih =>
    intro a ha hp hq
    have hle : l.countP p ≤ l.countP q := List.countP_mono_left fun x _ => h x
    rcases List.mem_cons.1 ha with rfl | ha
    · rw [List.countP_cons, List.countP_cons, hp, hq]; simp; omega
    · have := ih ha hp hq
      rw [List.countP_cons, List.countP_cons]
      have hb := h b
      cases hpb : p b <;> cases hqb : q b <;> simp_all <;> omega

theorem remaining_mono {r r' : Referenced} (h : Grows r r') : remaining S r' ≤ remaining S r :=
  List.countP_mono_left fun n _ hn => by
    simp only [decide_eq_true_eq] at hn ⊢
    exact fun h' => hn (h.1 n h')

theorem find_mem {n : Str} {t : Validation.TypeDef} (h : S.find n = some t) : n ∈ S.types.map (·.1) := by
  unfold Schema.find at h
  obtain ⟨e, he, _⟩ := Option.map_eq_some_iff.1 h
  have hm := List.mem_of_find?_eq_some he
  have hn := List.find?_some he
  exact List.mem_map.2 ⟨e, List.mem_reverse.1 hm, by simpa using hn⟩

theorem collectInputTypes_some (depth : Nat) : ∀ (type : Str) (r : Referenced), remaining S r < depth →
    ∃ r', collectInputTypes S depth type r = some r' := by
  induction depth with
  | zero => intro type r h; omega
  | succ depth ih =>
    intro type r h
    unfold collectInputTypes
    split
    swap
    · exact ⟨_, rfl⟩
    rename_i hk
    split
    · exact ⟨_, rfl⟩
    rename_i hin
    obtain ⟨t, ht, _⟩ := kind_find hk
    have hlt : remaining S { r with inputTypes := r.inputTypes ++ [type] } < depth := by
      have : remaining S { r with inputTypes := r.inputTypes ++ [type] } < remaining S r := by
        refine countP_lt (fun x => ?_) (find_mem ht) ?_ ?_
        · simp only [decide_eq_true_eq]; exact fun hx hx' => hx (List.mem_append_left _ hx')
        · simp
        · simpa using hin
      omega
    generalize ((S.find type).map (·.inputFields)).getD [] = fields
    revert hlt
    generalize ({ r with inputTypes := r.inputTypes ++ [type] } : Referenced) = r0
    induction fields generalizing r0 with
    | nil => exact fun _ => ⟨_, rfl⟩
    | cons f fields ihf =>
      intro hlt
      obtain ⟨r1, hr1⟩ := ih (baseName f.type) r0 hlt
      simp only [List.foldl_cons, Option.bind_some, hr1, Option.map_some]
      refine ihf _ (Nat.lt_of_le_of_lt (remaining_mono ?_) hlt)
      exact (collectInputTypes_collects _ _ _ _ hr1).grows.trans (collectEnum_grows _ _)

theorem fromVariables_some {depth : Nat} : ∀ (vs : List RequestVariable) (r : Referenced), remaining S r < depth →
    ∃ r', collectFromVariables S depth vs r = some r' := by
  intro vs
  induction vs with
  | nil => exact fun r _ => ⟨_, rfl⟩
  | cons v vs ih =>
    intro r h
    obtain ⟨r1, hr1⟩ := collectInputTypes_some depth v.type r h
    unfold collectFromVariables
    rw [hr1]
    exact ih _ (Nat.lt_of_le_of_lt
      (remaining_mono ((collectInputTypes_collects _ _ _ _ hr1).grows.trans (collectEnum_grows _ _))) h)

/-! ## Variables -/

theorem proper_of_wellFormed : ∀ {τ : TypeRef}, WellFormed τ → Gen.Proper τ
  | .named _, _ => .named
  | .list _, h => .list (proper_of_wellFormed (by simpa [WellFormed] using h))
  | .nonNull (.named _), _ => .nonNullNamed
  | .nonNull (.list _), h => .nonNullList (proper_of_wellFormed (by simpa [WellFormed] using h))
  | .nonNull (.nonNull _), h => by simp [WellFormed] at h

theorem baseName_eq : ∀ τ : TypeRef, TypeSystem.baseName τ = baseName τ
  | .named _ => rfl
  | .list τ => baseName_eq τ
  | .nonNull τ => baseName_eq τ

theorem getType_spec {τ : TypeRef} (h : WellFormed τ) : ∃ ms, ModifiersOf τ ms ∧ getType τ = (baseName τ, ms) := by
  rw [← baseName_eq]
  exact getType_eq (proper_of_wellFormed h)

theorem null_default {atoi : Int → Int} {l : Lit} (h : (defaultValue atoi l).type = .null) :
    l = .null ∨ ∃ pos name, l = .variable pos name := by
  cases l with
  | «variable» pos name => exact .inr ⟨pos, name, rfl⟩
  | null => exact .inl rfl
  | _ => simp [defaultValue, Resp.type] at h

theorem collectVariable_ok {atoi : Int → Int} {d : VarDef} {v : RequestVariable} (hw : WellFormed d.type)
    (h : collectVariable S atoi d = .ok v) : Declares atoi d v := by
  obtain ⟨ms, hms, hty⟩ := getType_spec hw
  unfold collectVariable at h
  simp only [hty] at h
  split at h
  · cases h
  · split at h
    · cases h
    · have := Except.ok.inj h
      subst this
      exact ⟨rfl, rfl, hms, rfl⟩

theorem required_iff {τ : TypeRef} (hw : WellFormed τ) : ((getType τ).2.head? == some .nullable) = false ↔ Required τ := by
  have := getType_head τ
  rw [beq_eq_false_iff_ne, ne_eq, this]
  constructor
  · intro h
    by_contra hr
    exact h fun σ hσ => hr ⟨σ, hσ⟩
  · rintro ⟨σ, rfl⟩ h
    exact h σ rfl

theorem collectVariable_error {atoi : Int → Int} {ds : List VarDef} (hok : VariablesOk S ds) {d : VarDef} (hd : d ∈ ds)
    (hw : WellFormed d.type) : (∃ e, collectVariable S atoi d = .error e) ↔ Required d.type ∧ VariableDefault d := by
  obtain ⟨ms, hms, hty⟩ := getType_spec hw
  obtain ⟨k, hk, _⟩ := hok.types d hd
  obtain ⟨t, ht, _⟩ := kind_find hk
  have hreq := required_iff hw
  unfold collectVariable
  simp only [hty] at hreq ⊢
  rw [if_neg (by rw [show S.find (baseName d.type) = some t from ht]; simp)]
  constructor
  · rintro ⟨e, he⟩
    split at he
    · rename_i hc
      simp only [Bool.and_eq_true, Bool.not_eq_true'] at hc
      refine ⟨hreq.1 hc.2, ?_⟩
      have hn := hc.1
      cases hdef : d.default with
      | none => rw [hdef] at hn; simp [nullDefault] at hn
      | some l =>
        rw [hdef] at hn
        simp only [Option.map_some, nullDefault, beq_iff_eq] at hn
        rcases null_default hn with rfl | ⟨pos, name, rfl⟩
        · obtain ⟨before, after, hsplit⟩ := List.append_of_mem hd
          have hfits := (hok.defaults before d after hsplit _ hdef).2
          cases hfits with
          | null h' => cases h' (hreq.1 hc.2)
          | scalar hp ht' hdef' hk' hs => exact absurd rfl hp.2
        · exact ⟨pos, name, hdef⟩
    · cases he
  · rintro ⟨hr, pos, name, hdef⟩
    rw [hreq.2 hr, hdef]
    exact ⟨_, rfl⟩

theorem collectVariables_ok {atoi : Int → Int} : ∀ {ds : List VarDef} {vs : List RequestVariable},
    (∀ d ∈ ds, WellFormed d.type) → collectVariables S atoi ds = .ok vs → List.Forall₂ (Declares atoi) ds vs := by
  intro ds
  induction ds with
  | nil => intro vs _ h; cases h; exact .nil
  | cons d ds ih =>
    intro vs hw h
    unfold collectVariables at h
    split at h
    · cases h
    · rename_i v hv
      split at h
      · cases h
      · rename_i vs' hvs
        cases h
        exact .cons (collectVariable_ok (hw d List.mem_cons_self) hv) (ih (fun x hx => hw x (List.mem_cons_of_mem _ hx)) hvs)

theorem collectVariables_error {atoi : Int → Int} : ∀ {ds : List VarDef},
    (∃ e, collectVariables S atoi ds = .error e) ↔ ∃ d ∈ ds, ∃ e, collectVariable S atoi d = .error e := by
  intro ds
  induction ds with
  | nil => simp [collectVariables]
  | cons d ds ih =>
    unfold collectVariables
    cases hv : collectVariable S atoi d with
    | error e => exact ⟨fun _ => ⟨d, List.mem_cons_self, e, hv⟩, fun _ => ⟨e, rfl⟩⟩
    | ok v =>
      have : (∃ e, collectVariables S atoi ds = .error e) ↔ ∃ d' ∈ d :: ds, ∃ e, collectVariable S atoi d' = .error e := by
        rw [ih]
        simp [hv]
      rw [← this]
      cases hvs : collectVariables S atoi ds with
      | error e => exact ⟨fun _ => ⟨e, rfl⟩, fun _ => ⟨e, rfl⟩⟩
      | ok vs => simp

theorem forall₂_left {α β : Type} {R : α → β → Prop} {as : List α} {bs : List β} (h : List.Forall₂ R as bs) :
    ∀ a ∈ as, ∃ b ∈ bs, R a b := by
  induction h with
  | nil => nofun
  | cons h _ ih =>
    intro x hx
    rcases List.mem_cons.1 hx with rfl | hx
    · exact ⟨_, List.mem_cons_self, h⟩
    · obtain ⟨b, hb, hr⟩ := ih x hx
      exact ⟨b, List.mem_cons_of_mem _ hb, hr⟩

theorem forall₂_right {α β : Type} {R : α → β → Prop} {as : List α} {bs : List β} (h : List.Forall₂ R as bs) :
    ∀ b ∈ bs, ∃ a ∈ as, R a b := by
  induction h with
  | nil => nofun
  | cons h _ ih =>
    intro x hx
    rcases List.mem_cons.1 hx with rfl | hx
    · exact ⟨_, List.mem_cons_self, h⟩
    · obtain ⟨b, hb, hr⟩ := ih x hx
      exact ⟨b, List.mem_cons_of_mem _ hb, hr⟩

/-! ## The members of the response -/

theorem Members.proper {fragments : List FragmentDef} {type : Str} {sel : List Selection} {fields : List ResponseField}
    (h : Members S fragments type sel fields) : ProperFields S fields := by
  induction h with
  | @mk type sel os fields _ hnames _ hleaf _ ih =>
    have hzip : ∀ f ∈ fields, ∃ o, (o, f) ∈ (firsts os).zip fields := by
      intro f hf
      have hlen : (firsts os).length = fields.length := by simpa using (congrArg List.length hnames).symm
      obtain ⟨i, hi, rfl⟩ := List.getElem_of_mem hf
      exact ⟨(firsts os)[i]'(by omega), by
        rw [List.mem_iff_getElem]
        exact ⟨i, by simp; omega, by simp⟩⟩
    refine ⟨fun f hf hne => ?_, fun f hf => ?_⟩
    · obtain ⟨o, ho⟩ := hzip f hf
      by_contra hc
      exact hne (hleaf o f ho (.inr (by simpa using hc)))
    · obtain ⟨o, ho⟩ := hzip f hf
      by_cases hc : o.sub = none ∨ S.isComposite f.type = false
      · rw [hleaf o f ho hc]
        exact ⟨nofun, nofun⟩
      · push Not at hc
        obtain ⟨hsub, hcomp⟩ := hc
        cases hs : o.sub with
        | none => exact absurd hs hsub
        | some sub => exact ih o f sub ho hs (by simpa using hcomp)

/-! ## The claims -/

/-- What there is when the constructor ends normally. -/
theorem loadAll_ok {overflow : Int → Int} {name : Str} {depth : Nat} {doc : Document} {l : Loaded}
    (h : loadAll S overflow name depth doc = .ok l) :
    loadRequest S overflow name depth doc = .ok l.request ∧
    collectVariables S (Exec.Env.atoi ⟨[], overflow⟩) l.request.operation.variables = .ok l.variables ∧
    ∃ r, collectFromVariables S depth l.variables {} = some r ∧ l.referenced = collectAllEnums S l.request.fields r := by
  unfold loadAll at h
  split at h
  · cases h
  · cases h
  · rename_i request hreq
    split at h
    · cases h
    · rename_i vars hvars
      split at h
      · cases h
      · rename_i r hr
        cases h
        exact ⟨hreq, hvars, r, hr, rfl⟩

/-- **C69** The operation is the one which the service finds for the same name. -/
theorem C69_operation {overflow : Int → Int} {name : Str} {depth : Nat} {doc : Document} {l : Loaded} (hS : Ready S)
    (hC : Validation.Spec.Schema.Closed S) (hw : WellFormedDocument doc)
    (h : loadAll S overflow name depth doc = .ok l) :
    Verif.Request.findOperation name doc.operations = some l.request.operation ∧
    Verif.Request.findOperation (l.request.operation.name.getD []) doc.operations = some l.request.operation := by
  obtain ⟨hreq, _, _⟩ := loadAll_ok h
  obtain ⟨hvalid, hch, _, _⟩ := C56_response hS hC hw hreq
  have find : ∀ {n : Str} {ops : List Operation} {op : Operation}, Chosen n ops op →
      Verif.Request.findOperation n ops = some op := by
    intro n ops op hc
    induction hc with
    | first h => simp [Verif.Request.findOperation, h]
    | named h => simp [Verif.Request.findOperation, h]
    | later hne h _ ih => simpa [Verif.Request.findOperation, hne, h] using ih
  refine ⟨find hch, ?_⟩
  have hmem := hch.mem
  by_cases hne : l.request.operation.name.getD [] = []
  · rw [hvalid.loneAnonymous _ hmem hne]
    simp [Verif.Request.findOperation]
  · have huniq := hvalid.uniqueOperations
    generalize doc.operations = ops at hmem huniq
    induction ops with
    | nil => cases hmem
    | cons o ops ih =>
      rw [List.map_cons, List.nodup_cons] at huniq
      rcases List.mem_cons.1 hmem with rfl | hmem
      · simp [Verif.Request.findOperation]
      · have : o.name.getD [] ≠ l.request.operation.name.getD [] := fun he =>
          huniq.1 (List.mem_map.2 ⟨_, hmem, he.symm⟩)
        simpa [Verif.Request.findOperation, hne, this] using ih hmem huniq.2

/-- **C69** The variables are those which the operation declares, in order, with their types; the default of a variable is
the value which the same literal has as an argument in a request, if there are no variables in it. -/
theorem C69_variables {overflow : Int → Int} {name : Str} {depth : Nat} {doc : Document} {l : Loaded} (hS : Ready S)
    (hC : Validation.Spec.Schema.Closed S) (hw : WellFormedDocument doc)
    (h : loadAll S overflow name depth doc = .ok l) :
    List.Forall₂ (fun d v => Declares (Exec.Env.atoi ⟨[], overflow⟩) d v ∧
      ∀ x, d.default = some x → Constant x → ∃ value, v.default = some value ∧
        ∀ vars, Exec.evalLit ⟨vars, overflow⟩ x = .ok value)
      l.request.operation.variables l.variables := by
  obtain ⟨hreq, hvars, _⟩ := loadAll_ok h
  obtain ⟨_, hch, _, _⟩ := C56_response hS hC hw hreq
  refine (collectVariables_ok (hw _ hch.mem) hvars).imp fun d v hd => ⟨hd, fun x hx hc => ?_⟩
  refine ⟨_, by rw [hd.default, hx]; rfl, fun vars => ?_⟩
  exact C53_default (env := ⟨vars, overflow⟩) hc

/-- **C69** The input types are those of the variables and of the fields of input types, at any depth: all of them, each
one once. -/
theorem C69_input_types {overflow : Int → Int} {name : Str} {depth : Nat} {doc : Document} {l : Loaded} (hS : Ready S)
    (hC : Validation.Spec.Schema.Closed S) (hw : WellFormedDocument doc)
    (h : loadAll S overflow name depth doc = .ok l) :
    l.referenced.inputTypes.Nodup ∧ ∀ n, n ∈ l.referenced.inputTypes ↔
      S.kind n = some .inputObject ∧ InVariables S l.request.operation.variables n := by
  obtain ⟨hreq, hvars, r, hr, hl⟩ := loadAll_ok h
  obtain ⟨_, hch, _, _⟩ := C56_response hS hC hw hreq
  have hdecl := collectVariables_ok (hw _ hch.mem) hvars
  obtain ⟨hcompl, _, h2, h3, _⟩ := fromVariables _ _ _ hr ⟨nofun, .nil, .nil⟩
  obtain ⟨e1, _⟩ := allEnums (S := S) l.request.fields r
  rw [hl, e1]
  refine ⟨hcompl.nodupInputTypes, fun n => ⟨fun hn => ?_, ?_⟩⟩
  · rcases h3 n hn with hn | ⟨hk, v, hv, hreach⟩
    · cases hn
    · obtain ⟨d, hd, hdv⟩ := forall₂_right hdecl v hv
      exact ⟨hk, d, hd, hdv.type ▸ hreach⟩
  · rintro ⟨hk, d, hd, hreach⟩
    obtain ⟨v, hv, hdv⟩ := forall₂_left hdecl d hd
    rw [← hdv.type] at hreach
    exact (hcompl.reaches hreach (h2 v hv).1 (h2 v hv).2).1 hk

/-- **C69** The enums are those of the variables, of the fields of input types, and of the fields of the response, at any
depth: all of them, each one once. -/
theorem C69_enums {overflow : Int → Int} {name : Str} {depth : Nat} {doc : Document} {l : Loaded} (hS : Ready S)
    (hC : Validation.Spec.Schema.Closed S) (hw : WellFormedDocument doc)
    (h : loadAll S overflow name depth doc = .ok l) :
    l.referenced.enums.Nodup ∧ ∀ n, n ∈ l.referenced.enums ↔
      S.kind n = some .enum ∧ (InVariables S l.request.operation.variables n ∨ InResponse n l.request.fields) := by
  obtain ⟨hreq, hvars, r, hr, hl⟩ := loadAll_ok h
  obtain ⟨_, hch, _, hmem⟩ := C56_response hS hC hw hreq
  have hdecl := collectVariables_ok (hw _ hch.mem) hvars
  obtain ⟨hcompl, _, h2, _, h4⟩ := fromVariables _ _ _ hr ⟨nofun, .nil, .nil⟩
  obtain ⟨_, e2, e3, e4, e5⟩ := allEnums (S := S) l.request.fields r
  rw [hl]
  refine ⟨e2 hcompl.nodupEnums, fun n => ⟨fun hn => ?_, ?_⟩⟩
  · rcases e4 n hn with hn | ⟨hk, hin⟩
    · rcases h4 n hn with hn | ⟨hk, v, hv, hreach⟩
      · cases hn
      · obtain ⟨d, hd, hdv⟩ := forall₂_right hdecl v hv
        exact ⟨hk, .inl ⟨d, hd, hdv.type ▸ hreach⟩⟩
    · exact ⟨hk, .inr hin⟩
  · rintro ⟨hk, ⟨d, hd, hreach⟩ | hin⟩
    · obtain ⟨v, hv, hdv⟩ := forall₂_left hdecl d hd
      rw [← hdv.type] at hreach
      exact e3 n ((hcompl.reaches hreach (h2 v hv).1 (h2 v hv).2).2 hk)
    · exact e5 hmem.proper n hk hin

/-- **C69** (finding) When the response has been loaded, the process is terminated exactly if a variable of a non-null type
has a variable as its default value. -/
theorem C69_terminates_iff {overflow : Int → Int} {name : Str} {depth : Nat} {doc : Document} {r : Request} (hS : Ready S)
    (hC : Validation.Spec.Schema.Closed S) (hw : WellFormedDocument doc)
    (h : loadRequest S overflow name depth doc = .ok r) :
    loadAll S overflow name depth doc = .error .terminate ↔
      ∃ d ∈ r.operation.variables, Required d.type ∧ VariableDefault d := by
  obtain ⟨hvalid, hch, _, _⟩ := C56_response hS hC hw h
  obtain ⟨_, hok, _⟩ := hvalid.operations _ hch.mem
  have key : (∃ e, collectVariables S (Exec.Env.atoi ⟨[], overflow⟩) r.operation.variables = .error e) ↔
      ∃ d ∈ r.operation.variables, Required d.type ∧ VariableDefault d := by
    rw [collectVariables_error]
    exact exists_congr fun d => and_congr_right fun hd => collectVariable_error hok hd (hw _ hch.mem d hd)
  rw [← key]
  unfold loadAll
  rw [h]
  dsimp only
  cases hv : collectVariables S (Exec.Env.atoi ⟨[], overflow⟩) r.operation.variables with
  | error e => exact ⟨fun _ => ⟨e, rfl⟩, fun _ => rfl⟩
  | ok vars =>
    refine ⟨fun h => ?_, fun ⟨e, he⟩ => by cases he⟩
    dsimp only at h
    split at h <;> cases h

/-- **C69** Otherwise the loader ends and has everything, whatever the input types are (they may contain themselves). -/
theorem C69_total {overflow : Int → Int} {name : Str} {depth : Nat} {doc : Document} {r : Request} (hS : Ready S)
    (hC : Validation.Spec.Schema.Closed S) (hw : WellFormedDocument doc)
    (h : loadRequest S overflow name depth doc = .ok r)
    (hd : ∀ d ∈ r.operation.variables, Required d.type → ¬ VariableDefault d) (hdepth : S.types.length < depth) :
    ∃ l, loadAll S overflow name depth doc = .ok l ∧ l.request = r := by
  have hnot : loadAll S overflow name depth doc ≠ .error .terminate := fun ht =>
    (C69_terminates_iff hS hC hw h).1 ht |>.elim fun d ⟨hm, hr, hv⟩ => hd d hm hr hv
  revert hnot
  unfold loadAll
  rw [h]
  dsimp only
  cases hv : collectVariables S (Exec.Env.atoi ⟨[], overflow⟩) r.operation.variables with
  | error e => exact fun hnot => absurd rfl hnot
  | ok vars =>
    intro _
    have : remaining S {} < depth := by
      refine Nat.lt_of_le_of_lt (List.countP_le_length) ?_
      simpa using hdepth
    obtain ⟨r', hr'⟩ := fromVariables_some vars {} this
    dsimp only
    rw [hr']
    exact ⟨_, rfl, rfl⟩

end Verif.Gen.Client
