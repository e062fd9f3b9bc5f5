import Verif.Gen.ParseProps
import Verif.Gen.ResponseClaims

/-!
# C57: reading a response
-/
namespace Verif.Gen.Client
open Verif.Value Verif.Resp Verif.Errors Verif.Ast Verif.Modifiers
open Verif.Validation (Schema baseName)
open Verif.Validation.Spec

variable {S : Schema} {fragments : List FragmentDef}

/-! ## Members -/

/-- The names of the members of a structure are distinct. -/
theorem Members.distinct {type : Str} {sel : List Selection} {fields : List ResponseField}
    (h : Members S fragments type sel fields) : Distinct fields := by
  induction h with
  | @mk type sel os fields hflat hnames htypes hleaf hchildren ih =>
    refine .mk (hnames ▸ nodup_firsts os) fun f hf => ?_
    have hl : fields.length = (firsts os).length := by simpa using congrArg List.length hnames
    obtain ⟨i, hi, rfl⟩ := List.mem_iff_getElem.mp hf
    have hz : ((firsts os)[i]'(by omega), fields[i]) ∈ (firsts os).zip fields :=
      List.mem_iff_getElem.mpr ⟨i, by simp; omega, by simp⟩
    by_cases hc : S.isComposite fields[i].type = true
    · cases hs : ((firsts os)[i]'(by omega)).sub with
      | none =>
        rw [hleaf _ _ hz (.inl hs)]
        exact .mk (by simp) (by simp)
      | some sub => exact ih _ _ sub hz hs hc
    · rw [hleaf _ _ hz (.inr (by simpa using hc))]
      exact .mk (by simp) (by simp)

theorem Flat.unique {type : Str} {sel : List Selection} {os os' : List Selected} (h : Flat fragments type sel os)
    (h' : Flat fragments type sel os') : os = os' := by
  induction h generalizing os' with
  | nil => cases h'; rfl
  | leaf _ ih => cases h' with | leaf h' => rw [ih h']
  | node _ ih => cases h' with | node h' => rw [ih h']
  | spread hf _ _ ih1 ih2 =>
    cases h' with
    | spread hf' h1 h2 =>
      rw [hf] at hf'
      cases hf'
      rw [ih1 h1, ih2 h2]
  | inline _ _ ih1 ih2 =>
    cases h' with
    | inline h1 h2 => rw [ih1 h1, ih2 h2]

theorem Part.cons {type type' : Str} {s : Selection} {rest sel' : List Selection}
    (h : Part fragments type rest type' sel') :
    ∃ sel'', Part fragments type (s :: rest) type' sel'' ∧ ∀ x ∈ sel', x ∈ sel'' := by
  cases h with
  | self => exact ⟨_, .self, fun x hx => List.mem_cons_of_mem _ hx⟩
  | inline hm h => exact ⟨_, .inline (List.mem_cons_of_mem _ hm) h, fun x hx => hx⟩
  | spread hm hf h => exact ⟨_, .spread (List.mem_cons_of_mem _ hm) hf h, fun x hx => hx⟩

theorem Selects.cons {type on : Str} {s : Selection} {rest : List Selection} {f : Field} {sub : Option (List Selection)}
    (h : Selects fragments type rest on f sub) : Selects fragments type (s :: rest) on f sub := by
  obtain ⟨sel', hp, hs⟩ := h
  obtain ⟨sel'', hp', hsub⟩ := Part.cons (s := s) hp
  refine ⟨sel'', hp', ?_⟩
  rcases hs with ⟨h1, h2⟩ | ⟨pos, below, h1, h2⟩
  · exact .inl ⟨h1, hsub _ h2⟩
  · exact .inr ⟨pos, below, h1, hsub _ h2⟩

/-- What is in the list is selected. -/
theorem Flat.selects {type : Str} {sel : List Selection} {os : List Selected} (h : Flat fragments type sel os) :
    ∀ o ∈ os, Selects fragments type sel o.on o.field o.sub := by
  induction h with
  | nil => nofun
  | @leaf type f rest os _ ih =>
    intro o ho
    rcases List.mem_cons.mp ho with rfl | ho
    · exact ⟨_, .self, .inl ⟨rfl, List.mem_cons_self⟩⟩
    · exact Selects.cons (ih o ho)
  | @node type f pos sub rest os _ ih =>
    intro o ho
    rcases List.mem_cons.mp ho with rfl | ho
    · exact ⟨_, .self, .inr ⟨_, _, rfl, List.mem_cons_self⟩⟩
    · exact Selects.cons (ih o ho)
  | @spread type pos name ds fragment rest os os' hf _ _ ih1 ih2 =>
    intro o ho
    rcases List.mem_append.mp ho with ho | ho
    · obtain ⟨sel', hp, hs⟩ := ih1 o ho
      exact ⟨sel', .spread List.mem_cons_self hf hp, hs⟩
    · exact Selects.cons (ih2 o ho)
  | @inline type pos t ds sub rest os os' _ _ ih1 ih2 =>
    intro o ho
    rcases List.mem_append.mp ho with ho | ho
    · obtain ⟨sel', hp, hs⟩ := ih1 o ho
      exact ⟨sel', .inline List.mem_cons_self hp, hs⟩
    · exact Selects.cons (ih2 o ho)

/-- The type of the schema, or without the `!` (`__schema`). -/
theorem typeIs_findField (hS : Ready S) {type name : Str} {def_ : Validation.FieldDef} {τ : TypeRef}
    (h : S.findField type name = some def_) (ht : TypeIs S type name τ) : def_.type = τ ∨ def_.type = .nonNull τ := by
  have hts : str "__schema" ≠ str "__typename" := by decide
  have htt : str "__type" ≠ str "__typename" := by decide
  have hst : str "__type" ≠ str "__schema" := by decide
  unfold Schema.findField at h
  split at h
  · cases h
  · rename_i t hfind
    cases ht with
    | typename =>
      rw [if_pos rfl] at h
      cases h
      exact .inl rfl
    | schema hi hq =>
      rw [if_neg hts] at h
      simp only [hi, hq, decide_true, beq_self_eq_true, Bool.and_self, if_true] at h
      cases h
      exact .inr rfl
    | type hi hq =>
      rw [if_neg htt] at h
      simp only [hi, hq, decide_true, beq_self_eq_true, Bool.and_self, if_true, hst, decide_false, Bool.false_and,
        Bool.false_eq_true, if_false] at h
      cases h
      exact .inl rfl
    | @field t' f hm hf hn hr =>
      rw [if_neg hn] at h
      have h1 : ¬ (decide (f.name = str "__schema") && S.introspection && type == S.query) = true := by
        simp only [Bool.and_eq_true, decide_eq_true_eq, beq_iff_eq]
        rintro ⟨⟨h1, h2⟩, h3⟩
        exact (hr h2 h3).1 h1
      have h2 : ¬ (decide (f.name = str "__type") && S.introspection && type == S.query) = true := by
        simp only [Bool.and_eq_true, decide_eq_true_eq, beq_iff_eq]
        rintro ⟨⟨h1, h2⟩, h3⟩
        exact (hr h2 h3).2 h1
      rw [if_neg h1, if_neg h2] at h
      have := (C48_find_iff hS.unique).mpr hm
      rw [hfind] at this
      cases this
      have hd : def_ ∈ t.fields := by simpa using List.mem_of_find?_eq_some h
      have hname : def_.name = f.name := by
        have := List.find?_some h
        simp only [Bool.and_eq_true, beq_iff_eq] at this
        exact this.1.1
      have : def_ = f := by
        have hnd := hS.unique.fields _ hm
        exact List.inj_on_of_nodup_map hnd hd hf hname
      exact .inl (this ▸ rfl)

/-! ## Reading -/

/-- Nothing is read otherwise than represented. -/
theorem Represents.reads {type : Str} {children : List ResponseField} {ms : List Mod} {v : Resp} {a : Arg Data}
    (h : Represents S type children ms v a) : Reads S type children ms v a := by
  induction h with
  | null => exact .null
  | some hv _ ih => exact .some hv ih
  | list hl _ ih => exact .list hl ih
  | leaf hc h => exact .leaf hc h
  | object hc hn _ _ he ih => exact .object hc hn ih he

/-- The modifiers are those of the type, or of the type without `!`. -/
def FitsType (τ : TypeRef) (ms : List Mod) : Prop := ModifiersOf τ ms ∨ ∃ τ', τ = .nonNull τ' ∧ ModifiersOf τ' ms

theorem exists_choice {α β : Type} {P : α → β → Prop} (l : List α) (h : ∀ x ∈ l, ∃ y, P x y) :
    ∃ ys : List β, l.length = ys.length ∧ ∀ x y, (x, y) ∈ l.zip ys → P x y := by
  induction l with
  | nil => exact ⟨[], rfl, by simp⟩
  | cons x l ih =>
    obtain ⟨y, hy⟩ := h x List.mem_cons_self
    obtain ⟨ys, hl, hys⟩ := ih fun x hx => h x (List.mem_cons_of_mem _ hx)
    refine ⟨y :: ys, by simp [hl], ?_⟩
    intro x' y' hm
    simp only [List.zip_cons_cons, List.mem_cons, Prod.mk.injEq] at hm
    rcases hm with ⟨rfl, rfl⟩ | hm
    · exact hy
    · exact hys _ _ hm

/-- Every answer to the selections of an accepted operation is represented by some value of the generated type. -/
theorem answers_represented (hS : Ready S) (hC : Schema.Closed S) {overflow : Int → Int} {doc : Document}
    (hwf : WellFormedDocument doc) (haccept : (Validation.validate S overflow doc {}).1 = []) {op : Operation}
    (hop : op ∈ doc.operations) {root : Str} (hroot : S.operationType (op.type.getD (str "query")) = some root)
    (hcons : Consistent S doc.fragments root op.sub) {τ : TypeRef} {sub : Option (List Selection)} {v : Resp}
    (h : Answers S doc.fragments τ sub v) : ∀ (ms : List Mod) (children : List ResponseField), FitsType τ ms →
      (∀ sel, sub = some sel → S.isComposite (baseName τ) = true →
        Members S doc.fragments (baseName τ) sel children ∧ Below S doc.fragments root op.sub (baseName τ) sel) →
      ∃ a, Represents S (baseName τ) children ms v a := by
  induction h with
  | null =>
    rintro ms children (h | ⟨τ', h, _⟩) _
    · cases h; exact ⟨_, .null⟩
    · cases h
  | nullList =>
    rintro ms children (h | ⟨τ', h, _⟩) _
    · cases h; exact ⟨_, .null⟩
    · cases h
  | @list τ sub vs h ih =>
    rintro ms children (hm | ⟨τ', hm, _⟩) hsub
    · cases hm with
      | @list _ ms hm =>
        obtain ⟨as, hl, has⟩ := exists_choice vs fun v hv => ih v hv ms children (.inl hm) hsub
        exact ⟨_, .some (by nofun) (.list hl has)⟩
    · cases hm
  | @nonNull τ sub v hv h ih =>
    rintro ms children (hm | ⟨τ', hm, hm'⟩) hsub
    · have : ModifiersOf τ (.nullable :: ms) := by
        cases hm with
        | nonNullNamed => exact .named
        | nonNullList hl => exact .list hl
      obtain ⟨a, ha⟩ := ih _ children (.inl this) hsub
      cases ha with
      | null => exact absurd rfl hv
      | some _ ha => exact ⟨_, ha⟩
    · cases hm
      exact ih ms children (.inl hm') hsub
  | @leaf n sub v d hc h =>
    rintro ms children (hm | ⟨τ', hm, _⟩) hsub
    · cases hm
      by_cases hv : v = .null
      · rw [hv]; exact ⟨_, .null⟩
      · exact ⟨_, .some hv (.leaf hc h)⟩
    · cases hm
  | @object n sel os members hc hflat hn o def_ ho h ih =>
    rintro ms children (hm | ⟨τ', hm, _⟩) hsub
    case inr => cases hm
    cases hm
    obtain ⟨hmem, hbelow⟩ := hsub sel rfl hc
    simp only [baseName] at hmem hbelow ⊢
    have hdist := hmem.distinct
    cases hmem with
    | @mk _ _ os' _ hflat' hnames htypes hleaf hchildren =>
      cases hflat.unique hflat'
      have hall : ∀ n w, (n, w) ∈ members → n ∈ children.map (·.name) := by
        intro n w hw
        obtain ⟨h1, h2, _⟩ := ho n w hw
        rw [hnames]
        obtain ⟨o', ho', hn'⟩ := names_firsts.mpr ⟨o n, h1, h2⟩
        exact List.mem_map.mpr ⟨o', ho', hn'⟩
      have hl : children.length = (firsts os).length := by simpa using congrArg List.length hnames
      have hread : ∀ f ∈ children, ∀ w, (f.name, w) ∈ members → ∃ a, Represents S f.type f.children f.modifiers w a := by
        intro f hf w hw
        obtain ⟨i, hi, rfl⟩ := List.mem_iff_getElem.mp hf
        generalize hfi : children[i] = f at *
        generalize hoi : (firsts os)[i]'(by omega) = o1
        have hz : (o1, f) ∈ (firsts os).zip children :=
          List.mem_iff_getElem.mpr ⟨i, by simp; omega, by simp [hfi, hoi]⟩
        have ho1 : o1 ∈ os := mem_firsts (hoi ▸ List.getElem_mem _)
        have hname1 : o1.name = f.name := by
          have := congrArg (fun l => l[i]?) hnames
          simp only [List.getElem?_map] at this
          rw [List.getElem?_eq_getElem hi, List.getElem?_eq_getElem (by omega), hfi, hoi] at this
          simpa using this.symm
        obtain ⟨h1, h2, h3⟩ := ho f.name w hw
        obtain ⟨_, τ1, ht1, hb1, hm1⟩ := htypes o1 f hz
        have hsel1 := hflat.selects o1 ho1
        have hsel2 := hflat.selects _ h1
        obtain ⟨first, hfirst⟩ := Validation.C33_fields_agree hC hwf haccept hop hroot hbelow
        obtain ⟨d1, hd1, hag1, _⟩ := hfirst _ _ _ hsel1
        obtain ⟨d2, hd2, hag2, _⟩ := hfirst _ _ _ hsel2
        have hsame : Exec.responseName o1.field = Exec.responseName (o f.name).field := hname1.trans h2.symm
        have htype : d1.type = d2.type := by
          rw [hsame] at hag1
          have e1 : (first (Exec.responseName (o f.name).field)).type = d1.type := by
            rcases hag1 with h | h
            · rw [h]
            · exact h.1
          have e2 : (first (Exec.responseName (o f.name).field)).type = d2.type := by
            rcases hag2 with h | h
            · rw [h]
            · exact h.1
          exact e1.symm.trans e2
        rw [h3] at hd2
        cases hd2
        have halike := hcons _ _ hbelow _ _ _ hsel1
        have hsubeq : (o f.name).sub = o1.sub := halike _ _ _ hsel2 hsame.symm
        have hτ := typeIs_findField hS hd1 ht1
        have hbase : baseName (def_ f.name).type = f.type := by
          rw [hb1, ← htype]
          rcases hτ with h | h <;> rw [h] <;> rfl
        obtain ⟨a, ha⟩ := ih f.name w hw f.modifiers f.children (by
            rw [← htype]
            rcases hτ with h | h
            · exact .inl (h ▸ hm1)
            · exact .inr ⟨τ1, h, hm1⟩) (by
            intro sel' hsel' hcomp
            rw [hbase] at hcomp ⊢
            rw [hsubeq] at hsel'
            refine ⟨hchildren o1 f sel' hz hsel' hcomp, ?_⟩
            rw [hsel'] at hsel1 halike
            have := Below.field hbelow hsel1 halike hd1
            rw [htype, hbase] at this
            exact this)
        rw [hbase] at ha
        exact ⟨a, ha⟩
      have hex : ∀ f ∈ children, ∃ a, (∀ w, (f.name, w) ∈ members → Represents S f.type f.children f.modifiers w a) ∧
          ((∀ w, (f.name, w) ∉ members) → IsEmpty S f.type f.children f.modifiers a) := by
        intro f hf
        by_cases hin : ∃ w, (f.name, w) ∈ members
        · obtain ⟨w, hw⟩ := hin
          obtain ⟨a, ha⟩ := hread f hf w hw
          refine ⟨a, fun w' hw' => ?_, fun h => absurd hw (h w)⟩
          have : (f.name, w') = (f.name, w) := List.inj_on_of_nodup_map hn hw' hw rfl
          cases this
          exact ha
        · exact ⟨emptyField S f, fun w hw => absurd ⟨w, hw⟩ hin, fun _ => isEmpty_field.mpr rfl⟩
      obtain ⟨as, hlen, has⟩ := exists_choice children hex
      have hds2 : (((children.map (·.name)).zip as).map (·.2)) = as := by
        rw [List.map_snd_zip]
        simp [hlen]
      refine ⟨.some (.leaf (.object ((children.map (·.name)).zip as))), .some (by nofun) (.object hc ?_ hall ?_ ?_)⟩
      · rw [List.map_fst_zip]
        simp [hlen]
      · intro f a hm w hw
        rw [hds2] at hm
        exact (has f a hm).1 w hw
      · intro f a hm hw
        rw [hds2] at hm
        exact (has f a hm).2 hw

/-! ## The claims -/

/-- Reading a response of the request: for structures with distinct names. -/
theorem parseResponse_iff (hS : Ready S) (he : EnumsSafe S) {root : Str} (hc : S.isComposite root = true)
    {fields : List ResponseField} (hd : Distinct fields) {v : Resp} (hv : NoDuplicates v) {d : Data} :
    parseResponse S fields v = .ok d ↔ Reads S root fields [] v (.leaf d) := by
  obtain ⟨hn, hds⟩ := hd
  exact parseObject_iff hc hn (parseFields_iff hS.unique he fields hds) hv

/-- **C57** For every request for which clientgen generates code, and every response whatever: `parseResponse` gives `d`
exactly if `d` is what the response is read as; it throws exactly if there is no such value. -/
theorem C57_parse_iff (hS : Ready S) (hC : Schema.Closed S) (he : EnumsSafe S) {overflow : Int → Int} {doc : Document}
    (hw : WellFormedDocument doc) {name : Str} {depth : Nat} {r : Request}
    (h : loadRequest S overflow name depth doc = .ok r) (hc : S.isComposite r.root = true) {v : Resp} (hv : NoDuplicates v) :
    (∀ d, parseResponse S r.fields v = .ok d ↔ Reads S r.root r.fields [] v (.leaf d)) ∧
    ((∃ e, parseResponse S r.fields v = .error e) ↔ ∀ d, ¬ Reads S r.root r.fields [] v (.leaf d)) := by
  obtain ⟨_, _, _, hm⟩ := C56_response hS hC hw h
  have key : ∀ d, parseResponse S r.fields v = .ok d ↔ Reads S r.root r.fields [] v (.leaf d) :=
    fun d => parseResponse_iff hS he hc hm.distinct hv
  refine ⟨key, ?_⟩
  simp only [← key]
  cases hp : parseResponse S r.fields v with
  | ok d => simp
  | error e => simp

/-- **C57** `parseResponse` reads every answer which a server may send to a request, and nothing of it is lost, provided
that no selection set selects two fields with the same response name but different selections. -/
theorem C57_answers (hS : Ready S) (hC : Schema.Closed S) (he : EnumsSafe S) {overflow : Int → Int} {doc : Document}
    (hw : WellFormedDocument doc) {name : Str} {depth : Nat} {r : Request}
    (h : loadRequest S overflow name depth doc = .ok r) (hc : S.isComposite r.root = true)
    (hcons : Consistent S doc.fragments r.root r.operation.sub) {v : Resp} (hv : NoDuplicates v)
    (ha : Answers S doc.fragments (.named r.root) (some r.operation.sub) v) (hnull : v ≠ .null) :
    ∃ d, parseResponse S r.fields v = .ok d ∧ Represents S r.root r.fields [] v (.leaf d) := by
  obtain ⟨hvalid, hch, hroot, hm⟩ := C56_response hS hC hw h
  have haccept := (Validation.C48_accepts_iff_valid hC hw).mpr hvalid
  obtain ⟨a, ha⟩ := answers_represented hS hC hw haccept hch.mem hroot hcons ha [.nullable] r.fields (.inl .named) (by
    intro sel hsel _
    cases hsel
    exact ⟨hm, .self⟩)
  cases ha with
  | null => exact absurd rfl hnull
  | @some _ _ _ _ a _ ha =>
    have : ∃ d, a = .leaf d := by
      cases ha with
      | leaf => exact ⟨_, rfl⟩
      | object => exact ⟨_, rfl⟩
    obtain ⟨d, rfl⟩ := this
    exact ⟨d, (parseResponse_iff hS he hc hm.distinct hv).mpr ha.reads, ha⟩

/-- **C57** Neither the order of the members nor other members of the response matter. -/
theorem C57_order (hS : Ready S) (he : EnumsSafe S) {root : Str} (hc : S.isComposite root = true)
    {fields : List ResponseField} (hd : Distinct fields) {members members' : Resp.Members}
    (hv : NoDuplicates (.map members)) (hv' : NoDuplicates (.map members'))
    (hm : ∀ f ∈ fields, ∀ w, (f.name, w) ∈ members ↔ (f.name, w) ∈ members') (d : Data) :
    parseResponse S fields (.map members) = .ok d ↔ parseResponse S fields (.map members') = .ok d := by
  have key : ∀ {ms ms' : Resp.Members}, (∀ f ∈ fields, ∀ w, (f.name, w) ∈ ms ↔ (f.name, w) ∈ ms') →
      Reads S root fields [] (.map ms) (.leaf d) → Reads S root fields [] (.map ms') (.leaf d) := by
    intro ms ms' hm h
    cases h with
    | leaf hc' => rw [hc] at hc'; cases hc'
    | object _ hn h1 h2 =>
      refine .object hc hn (fun f a hz w hw => ?_) (fun f a hz hw => ?_)
      · exact h1 f a hz w ((hm f (List.of_mem_zip hz).1 w).mpr hw)
      · exact h2 f a hz fun w hw' => hw w ((hm f (List.of_mem_zip hz).1 w).mp hw')
    | notObject _ h => exact absurd rfl (h _)
  rw [parseResponse_iff hS he hc hd hv, parseResponse_iff hS he hc hd hv']
  exact ⟨key hm, key fun f hf w => (hm f hf w).symm⟩

end Verif.Gen.Client
