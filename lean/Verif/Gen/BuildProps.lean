import Verif.Gen.BuildAll
import Mathlib.Tactic.ByContra
import Mathlib.Tactic.Choose

/-!
# The built schema is the loaded one
-/
namespace Verif.Gen
open Verif.Value Verif.Errors Verif.Modifiers Verif.TypeSystem
open Verif.TypeSystem.Spec (last nullIfEmpty)
open Verif.Schema.Wrap (Kind Addr)

variable {alloc : List Op → Addr}

/-! ## What the last call said -/

theorem last_append {β : Type} (f : Op → Option β) (A B : List Op) : last f (A ++ B) = (last f B).or (last f A) := by
  simp only [last, List.filterMap_append, List.getLast?_append]

theorem last_nonwrap {β : Type} (f : Op → Option β) (hf : ∀ a k o, f (.wrap a k o) = none) (ops : List Op) :
    last f ops = last f (ops.filter fun o => !isWrap o) := by
  simp only [last]
  congr 1
  induction ops with
  | nil => rfl
  | cons o ops ih =>
    cases o with
    | wrap a k t => simp [List.filterMap_cons, hf, isWrap, ih]
    | _ => simp [List.filterMap_cons, isWrap, ih]

theorem last_none {β : Type} {f : Op → Option β} {ops : List Op} (h : ∀ o ∈ ops, f o = none) : last f ops = none := by
  rw [last, List.filterMap_eq_nil_iff.2 h]; rfl

/-- Different names are different types. -/
theorem lookup_inj {st : BuildState} (hi : Inv st) {n m : Str} {a : Addr} (h1 : st.schema.lookupType n = .ok a)
    (h2 : st.schema.lookupType m = .ok a) : n = m := by
  obtain ⟨t, ht, _, e, _⟩ := Denotes.made hi.built hi.own h1
  obtain ⟨t', ht', _, e', _⟩ := Denotes.made hi.built hi.own h2
  rw [ht] at ht'
  injection ht' with ht'
  rw [← e, ← e', ht']

/-- The calls `c` say `vs` about the type `n`, and nothing about other types. -/
def Seg {β : Type} (f : Addr → Op → Option (List β)) (n : Str) (R : List β → Prop) (st : BuildState) (c : List Op) : Prop :=
  ∃ a vs, st.schema.lookupType n = .ok a ∧ R vs ∧ ∀ b, last (f b) c = if b = a ∧ vs ≠ [] then some vs else none

theorem seg_none {α β : Type} {f : Addr → Op → Option (List β)} {nm : α → Str} {R : α → List β → Prop} {st : BuildState}
    (hi : Inv st) {ts : List α} {cs : List (List Op)} (h : List.Forall₂ (fun t c => Seg f (nm t) (R t) st c) ts cs)
    {n : Str} {a : Addr} (hl : st.schema.lookupType n = .ok a) (hn : n ∉ ts.map nm) : last (f a) cs.flatten = none := by
  induction h with
  | nil => rfl
  | @cons t c ts cs h1 _ ih =>
    simp only [List.map_cons, List.mem_cons, not_or] at hn
    obtain ⟨b, vs, h2, _, h4⟩ := h1
    rw [List.flatten_cons, last_append, ih hn.2, h4, if_neg]
    · rfl
    · rintro ⟨rfl, _⟩
      exact hn.1 (lookup_inj hi hl h2)

theorem seg_some {α β : Type} {f : Addr → Op → Option (List β)} {nm : α → Str} {R : α → List β → Prop} {st : BuildState}
    (hi : Inv st) {ts : List α} {cs : List (List Op)} (h : List.Forall₂ (fun t c => Seg f (nm t) (R t) st c) ts cs)
    (hnd : (ts.map nm).Nodup) {t : α} (ht : t ∈ ts) {a : Addr} (hl : st.schema.lookupType (nm t) = .ok a) :
    R t ((last (f a) cs.flatten).getD []) := by
  induction h with
  | nil => cases ht
  | @cons t' c ts cs h1 h2 ih =>
    simp only [List.map_cons, List.nodup_cons] at hnd
    rw [List.flatten_cons, last_append]
    obtain ⟨b, vs, h3, h4, h5⟩ := h1
    rcases List.mem_cons.1 ht with rfl | ht
    · rw [seg_none hi h2 hl hnd.1, h5]
      rw [hl] at h3
      injection h3 with h3
      by_cases hv : vs = []
      · subst hv; simpa using h4
      · simpa [h3, hv] using h4
    · rw [h5, if_neg]
      · simpa using ih hnd.2 ht
      · rintro ⟨rfl, _⟩
        exact hnd.1 (by rw [← lookup_inj hi hl h3]; exact List.mem_map_of_mem ht)

theorem Given.seg {β : Type} {op : Addr → List β → Op} {R : BuildState → List β → Prop} {n : Str} {st : BuildState} {c : List Op}
    (h : Given op R n st c) {f : Addr → Op → Option (List β)} (hf : ∀ b a vs, f b (op a vs) = if a = b then some vs else none) :
    Seg f n (R st) st c := by
  obtain ⟨a, vs, h1, h2, rfl⟩ := h
  refine ⟨a, vs, h1, h2, fun b => ?_⟩
  by_cases hv : vs = []
  · simp [hv, optCall, last]
  · by_cases e : b = a
    · subst e; simp [optCall, hv, last, hf]
    · simp [optCall, hv, last, hf, e, Ne.symm e]

theorem Given.silent {β γ : Type} {op : Addr → List β → Op} {R : BuildState → List β → Prop} {n : Str} {st : BuildState}
    {c : List Op} (h : Given op R n st c) {f : Op → Option γ} (hf : ∀ a vs, f (op a vs) = none) : ∀ o ∈ c, f o = none := by
  obtain ⟨a, vs, _, _, rfl⟩ := h
  intro o ho
  unfold optCall at ho
  split at ho
  · cases ho
  · simp at ho; rw [ho, hf]

theorem silent_flatten {α γ : Type} {P : α → List Op → Prop} {f : Op → Option γ} (hP : ∀ t c, P t c → ∀ o ∈ c, f o = none)
    {ts : List α} {cs : List (List Op)} (h : List.Forall₂ P ts cs) : last f cs.flatten = none := by
  apply last_none
  intro o ho
  obtain ⟨c, hc, ho⟩ := List.mem_flatten.1 ho
  obtain ⟨t, _, hp⟩ := forall₂_right h hc
  exact hP t c hp o ho

def fieldsF (b : Addr) : Op → Option (List Field)
  | .addFields a fs => if a = b then some fs else none
  | _ => none
def interfacesF (b : Addr) : Op → Option (List Addr)
  | .addInterfaces a fs => if a = b then some fs else none
  | _ => none
def unionF (b : Addr) : Op → Option (List Addr)
  | .addPossibleTypes a fs => if a = b then some fs else none
  | _ => none
def enumF (b : Addr) : Op → Option (List EnumValue)
  | .addEnumValues a fs => if a = b then some fs else none
  | _ => none
def inputF (b : Addr) : Op → Option (List InputValue)
  | .addInputValues a fs => if a = b then some fs else none
  | _ => none

theorem spec_fields (ops : List Op) (a : Addr) : Spec.fields ops a = (last (fieldsF a) ops).getD [] := by
  simp only [Spec.fields]; congr 2
theorem spec_interfaces (ops : List Op) (a : Addr) : Spec.interfaces ops a = (last (interfacesF a) ops).getD [] := by
  simp only [Spec.interfaces]; congr 2
theorem spec_union (ops : List Op) (a : Addr) : Spec.unionTypes ops a = (last (unionF a) ops).getD [] := by
  simp only [Spec.unionTypes]; congr 2
theorem spec_enum (ops : List Op) (a : Addr) : Spec.enumValues ops a = (last (enumF a) ops).getD [] := by
  simp only [Spec.enumValues]; congr 2
theorem spec_input (ops : List Op) (a : Addr) : Spec.inputFields ops a = (last (inputF a) ops).getD [] := by
  simp only [Spec.inputFields]; congr 2

theorem GivenBoth.fields {n : Str} {is : List Str} {fs : List OutputField} {st : BuildState} {c : List Op}
    (h : GivenBoth n is fs st c) : Seg fieldsF n (List.Forall₂ (FieldOk st) fs) st c := by
  obtain ⟨a, as, vs, h1, h2, h3, rfl⟩ := h
  refine ⟨a, vs, h1, h3, fun b => ?_⟩
  have e : last (fieldsF b) (optCall .addInterfaces a as) = none := by
    apply last_none
    intro o ho
    unfold optCall at ho
    split at ho
    · cases ho
    · simp at ho; rw [ho]; rfl
  rw [last_append, e, Option.or_none]
  obtain ⟨a', vs', _, rfl, h4⟩ := Given.seg (op := .addFields) (f := fieldsF) (R := fun _ ws => ws = vs) ⟨a, vs, h1, rfl, rfl⟩
    (fun _ _ _ => rfl)
  rw [h4 b]
  have : a' = a := by simp_all
  rw [this]

theorem GivenBoth.interfaces {n : Str} {is : List Str} {fs : List OutputField} {st : BuildState} {c : List Op}
    (h : GivenBoth n is fs st c) :
    Seg interfacesF n (List.Forall₂ (fun n i => st.schema.lookupType n = .ok i) is) st c := by
  obtain ⟨a, as, vs, h1, h2, h3, rfl⟩ := h
  refine ⟨a, as, h1, h2, fun b => ?_⟩
  have e : last (interfacesF b) (optCall .addFields a vs) = none := by
    apply last_none
    intro o ho
    unfold optCall at ho
    split at ho
    · cases ho
    · simp at ho; rw [ho]; rfl
  rw [last_append, e, Option.none_or]
  obtain ⟨a', vs', _, rfl, h4⟩ := Given.seg (op := .addInterfaces) (f := interfacesF) (R := fun _ ws => ws = as) ⟨a, as, h1, rfl, rfl⟩
    (fun _ _ _ => rfl)
  rw [h4 b]
  have : a' = a := by simp_all
  rw [this]

theorem GivenBoth.silent {n : Str} {is : List Str} {fs : List OutputField} {st : BuildState} {c : List Op}
    (h : GivenBoth n is fs st c) {γ : Type} {f : Op → Option γ} (hf : ∀ a vs, f (.addFields a vs) = none)
    (hf' : ∀ a vs, f (.addInterfaces a vs) = none) : ∀ o ∈ c, f o = none := by
  obtain ⟨a, as, vs, _, _, _, rfl⟩ := h
  intro o ho
  simp only [List.mem_append, optCall] at ho
  rcases ho with ho | ho <;> split at ho
  · cases ho
  · simp at ho; rw [ho, hf']
  · cases ho
  · simp at ho; rw [ho, hf]

theorem roots_silent {st : BuildState} {os : List OperationType} {rs : List (List Op)} (h : List.Forall₂ (RootOk st) os rs)
    {γ : Type} {f : Op → Option γ} (h1 : ∀ a, f (.addQueryType a) = none) (h2 : ∀ a, f (.addMutationType a) = none)
    (h3 : ∀ a, f (.addSubscriptionType a) = none) : last f rs.flatten = none := by
  refine silent_flatten ?_ h
  rintro o c ⟨a, _, rfl⟩ x hx
  unfold rootCalls at hx
  split at hx
  · simp at hx; rw [hx, h1]
  split at hx
  · simp at hx; rw [hx, h2]
  split at hx
  · simp at hx; rw [hx, h3]
  · cases hx

theorem directives_silent {st : BuildState} {ds : List DirectiveType} {vs : List (List Op)}
    (h : List.Forall₂ (fun d c => ∃ v, DirectiveOk st d v ∧ c = [.addDirective v]) ds vs)
    {γ : Type} {f : Op → Option γ} (h1 : ∀ d, f (.addDirective d) = none) : last f vs.flatten = none := by
  refine silent_flatten ?_ h
  rintro d c ⟨v, _, rfl⟩ o ho
  simp at ho; rw [ho, h1]

theorem decls_silent {γ : Type} {f : Op → Option γ} (h1 : ∀ a k n d, f (.make a k n d) = none) (h2 : ∀ n a, f (.addType n a) = none)
    (ds : List Decl) : last f (ds.flatMap Decl.calls) = none := by
  apply last_none
  intro o ho
  obtain ⟨d, _, ho⟩ := List.mem_flatMap.1 ho
  simp [Decl.calls] at ho
  rcases ho with rfl | rfl
  · exact h1 ..
  · exact h2 ..

/-- All the calls are those for `l₁` and then those for `l₂`. -/
structure Twice (st : BuildState) (l₁ l₂ : Loader) : Prop where
  inv : Inv st
  nodup : (typeNames l₁ ++ typeNames l₂).Nodup
  calls : ∃ ds es is us fs os vs rs ds' es' is' us' fs' os' vs' rs',
    st.ops.filter (fun o => !isWrap o) = (ds.flatMap Decl.calls ++ es.flatten ++ is.flatten ++ us.flatten ++ fs.flatten ++
      os.flatten ++ vs.flatten ++ rs.flatten) ++ (ds'.flatMap Decl.calls ++ es'.flatten ++ is'.flatten ++ us'.flatten ++
      fs'.flatten ++ os'.flatten ++ vs'.flatten ++ rs'.flatten) ∧
    Calls st l₁ ds es is us fs os vs rs ∧ Calls st l₂ ds' es' is' us' fs' os' vs' rs'

section
variable {st : BuildState} {l₁ l₂ : Loader}

theorem Calls.last_enum {l : Loader} {ds : List Decl} {es is us fs os vs rs : List (List Op)}
    (h : Calls st l ds es is us fs os vs rs) (a : Addr) :
    last (enumF a) (ds.flatMap Decl.calls ++ es.flatten ++ is.flatten ++ us.flatten ++ fs.flatten ++ os.flatten ++ vs.flatten ++
      rs.flatten) = last (enumF a) (es.flatten) := by
  simp only [last_append,
    decls_silent (f := enumF a) (fun _ _ _ _ => rfl) (fun _ _ => rfl),
    silent_flatten (f := enumF a) (fun _ _ hc => hc.silent fun _ _ => rfl) h.inputs,
    silent_flatten (f := enumF a) (fun _ _ hc => hc.silent fun _ _ => rfl) h.unions,
    silent_flatten (f := enumF a) (fun _ _ hc => hc.silent fun _ _ => rfl) h.interfaces,
    silent_flatten (f := enumF a) (fun _ _ hc => hc.silent (fun _ _ => rfl) fun _ _ => rfl) h.objects,
    directives_silent (f := enumF a) h.directives fun _ => rfl,
    roots_silent (f := enumF a) h.operations (fun _ => rfl) (fun _ => rfl) fun _ => rfl,
    Option.none_or, Option.or_none]

theorem Calls.last_input {l : Loader} {ds : List Decl} {es is us fs os vs rs : List (List Op)}
    (h : Calls st l ds es is us fs os vs rs) (a : Addr) :
    last (inputF a) (ds.flatMap Decl.calls ++ es.flatten ++ is.flatten ++ us.flatten ++ fs.flatten ++ os.flatten ++ vs.flatten ++
      rs.flatten) = last (inputF a) (is.flatten) := by
  simp only [last_append,
    decls_silent (f := inputF a) (fun _ _ _ _ => rfl) (fun _ _ => rfl),
    silent_flatten (f := inputF a) (fun _ _ hc => hc.silent fun _ _ => rfl) h.enums,
    silent_flatten (f := inputF a) (fun _ _ hc => hc.silent fun _ _ => rfl) h.unions,
    silent_flatten (f := inputF a) (fun _ _ hc => hc.silent fun _ _ => rfl) h.interfaces,
    silent_flatten (f := inputF a) (fun _ _ hc => hc.silent (fun _ _ => rfl) fun _ _ => rfl) h.objects,
    directives_silent (f := inputF a) h.directives fun _ => rfl,
    roots_silent (f := inputF a) h.operations (fun _ => rfl) (fun _ => rfl) fun _ => rfl,
    Option.none_or, Option.or_none]

theorem Calls.last_union {l : Loader} {ds : List Decl} {es is us fs os vs rs : List (List Op)}
    (h : Calls st l ds es is us fs os vs rs) (a : Addr) :
    last (unionF a) (ds.flatMap Decl.calls ++ es.flatten ++ is.flatten ++ us.flatten ++ fs.flatten ++ os.flatten ++ vs.flatten ++
      rs.flatten) = last (unionF a) (us.flatten) := by
  simp only [last_append,
    decls_silent (f := unionF a) (fun _ _ _ _ => rfl) (fun _ _ => rfl),
    silent_flatten (f := unionF a) (fun _ _ hc => hc.silent fun _ _ => rfl) h.enums,
    silent_flatten (f := unionF a) (fun _ _ hc => hc.silent fun _ _ => rfl) h.inputs,
    silent_flatten (f := unionF a) (fun _ _ hc => hc.silent fun _ _ => rfl) h.interfaces,
    silent_flatten (f := unionF a) (fun _ _ hc => hc.silent (fun _ _ => rfl) fun _ _ => rfl) h.objects,
    directives_silent (f := unionF a) h.directives fun _ => rfl,
    roots_silent (f := unionF a) h.operations (fun _ => rfl) (fun _ => rfl) fun _ => rfl,
    Option.none_or, Option.or_none]

theorem Calls.last_fields {l : Loader} {ds : List Decl} {es is us fs os vs rs : List (List Op)}
    (h : Calls st l ds es is us fs os vs rs) (a : Addr) :
    last (fieldsF a) (ds.flatMap Decl.calls ++ es.flatten ++ is.flatten ++ us.flatten ++ fs.flatten ++ os.flatten ++ vs.flatten ++
      rs.flatten) = last (fieldsF a) (fs.flatten ++ os.flatten) := by
  simp only [last_append,
    decls_silent (f := fieldsF a) (fun _ _ _ _ => rfl) (fun _ _ => rfl),
    silent_flatten (f := fieldsF a) (fun _ _ hc => hc.silent fun _ _ => rfl) h.enums,
    silent_flatten (f := fieldsF a) (fun _ _ hc => hc.silent fun _ _ => rfl) h.inputs,
    silent_flatten (f := fieldsF a) (fun _ _ hc => hc.silent fun _ _ => rfl) h.unions,
    directives_silent (f := fieldsF a) h.directives fun _ => rfl,
    roots_silent (f := fieldsF a) h.operations (fun _ => rfl) (fun _ => rfl) fun _ => rfl,
    Option.none_or, Option.or_none]

theorem Calls.last_interfaces {l : Loader} {ds : List Decl} {es is us fs os vs rs : List (List Op)}
    (h : Calls st l ds es is us fs os vs rs) (a : Addr) :
    last (interfacesF a) (ds.flatMap Decl.calls ++ es.flatten ++ is.flatten ++ us.flatten ++ fs.flatten ++ os.flatten ++ vs.flatten ++
      rs.flatten) = last (interfacesF a) (os.flatten) := by
  simp only [last_append,
    decls_silent (f := interfacesF a) (fun _ _ _ _ => rfl) (fun _ _ => rfl),
    silent_flatten (f := interfacesF a) (fun _ _ hc => hc.silent fun _ _ => rfl) h.enums,
    silent_flatten (f := interfacesF a) (fun _ _ hc => hc.silent fun _ _ => rfl) h.inputs,
    silent_flatten (f := interfacesF a) (fun _ _ hc => hc.silent fun _ _ => rfl) h.unions,
    silent_flatten (f := interfacesF a) (fun _ _ hc => hc.silent fun _ _ => rfl) h.interfaces,
    directives_silent (f := interfacesF a) h.directives fun _ => rfl,
    roots_silent (f := interfacesF a) h.operations (fun _ => rfl) (fun _ => rfl) fun _ => rfl,
    Option.none_or, Option.or_none]

theorem sublists (l : Loader) : (l.enumTypes.map (·.type)).Sublist (typeNames l) ∧
    (l.inputTypes.map (·.type)).Sublist (typeNames l) ∧ (l.unionTypes.map (·.type)).Sublist (typeNames l) ∧
    (l.interfaceTypes.map (·.type)).Sublist (typeNames l) ∧ (l.objectTypes.map (·.type)).Sublist (typeNames l) ∧
    (l.interfaceTypes.map (·.type) ++ l.objectTypes.map (·.type)).Sublist (typeNames l) := by
  have L : ∀ (a b : List Str), a.Sublist (a ++ b) := List.sublist_append_left
  have R : ∀ (a b : List Str), b.Sublist (a ++ b) := List.sublist_append_right
  unfold typeNames
  refine ⟨?_, ?_, ?_, ?_, ?_, ?_⟩
  · exact ((((R _ _).trans (L _ _)).trans (L _ _)).trans (L _ _)).trans (L _ _)
  · exact (((R _ _).trans (L _ _)).trans (L _ _)).trans (L _ _)
  · exact ((R _ _).trans (L _ _)).trans (L _ _)
  · exact (R _ _).trans (L _ _)
  · exact R _ _
  · rw [List.append_assoc]; exact R _ _

theorem Twice.sub (h : Twice st l₁ l₂) {a b : List Str} (ha : a.Sublist (typeNames l₁)) (hb : b.Sublist (typeNames l₂)) :
    (a ++ b).Nodup := (ha.append hb).nodup h.nodup

theorem Twice.enums (h : Twice st l₁ l₂) {t : EnumType} (ht : t ∈ l₁.enumTypes ++ l₂.enumTypes) {a : Addr}
    (hl : st.schema.lookupType t.type = .ok a) : Spec.enumValues st.ops a = enumMembers t := by
  obtain ⟨ds, es, is, us, fs, os, vs, rs, ds', es', is', us', fs', os', vs', rs', h0, h1, h2⟩ := h.calls
  have := seg_some (f := enumF) (R := fun t vs => vs = enumMembers t) h.inv
    (List.rel_append (h1.enums.imp fun _ _ hc => hc.seg fun _ _ _ => rfl) (h2.enums.imp fun _ _ hc => hc.seg fun _ _ _ => rfl))
    (by rw [List.map_append]; exact h.sub (sublists _).1 (sublists _).1) ht hl
  rw [spec_enum, last_nonwrap _ (fun _ _ _ => rfl), h0, last_append, h1.last_enum, h2.last_enum, ← last_append]
  rwa [List.flatten_append] at this

theorem Twice.inputs (h : Twice st l₁ l₂) {t : InputType} (ht : t ∈ l₁.inputTypes ++ l₂.inputTypes) {a : Addr}
    (hl : st.schema.lookupType t.type = .ok a) : List.Forall₂ (InputOk st) t.fields (Spec.inputFields st.ops a) := by
  obtain ⟨ds, es, is, us, fs, os, vs, rs, ds', es', is', us', fs', os', vs', rs', h0, h1, h2⟩ := h.calls
  have := seg_some (f := inputF) (R := fun t vs => List.Forall₂ (InputOk st) t.fields vs) h.inv
    (List.rel_append (h1.inputs.imp fun _ _ hc => hc.seg fun _ _ _ => rfl) (h2.inputs.imp fun _ _ hc => hc.seg fun _ _ _ => rfl))
    (by rw [List.map_append]; exact h.sub (sublists _).2.1 (sublists _).2.1) ht hl
  rw [spec_input, last_nonwrap _ (fun _ _ _ => rfl), h0, last_append, h1.last_input, h2.last_input, ← last_append]
  rwa [List.flatten_append] at this

theorem Twice.unions (h : Twice st l₁ l₂) {t : UnionType} (ht : t ∈ l₁.unionTypes ++ l₂.unionTypes) {a : Addr}
    (hl : st.schema.lookupType t.type = .ok a) :
    List.Forall₂ (fun n a => st.schema.lookupType n = .ok a) t.options (Spec.unionTypes st.ops a) := by
  obtain ⟨ds, es, is, us, fs, os, vs, rs, ds', es', is', us', fs', os', vs', rs', h0, h1, h2⟩ := h.calls
  have := seg_some (f := unionF) (R := fun t vs => List.Forall₂ (fun n a => st.schema.lookupType n = .ok a) t.options vs) h.inv
    (List.rel_append (h1.unions.imp fun _ _ hc => hc.seg fun _ _ _ => rfl) (h2.unions.imp fun _ _ hc => hc.seg fun _ _ _ => rfl))
    (by rw [List.map_append]; exact h.sub (sublists _).2.2.1 (sublists _).2.2.1) ht hl
  rw [spec_union, last_nonwrap _ (fun _ _ _ => rfl), h0, last_append, h1.last_union, h2.last_union, ← last_append]
  rwa [List.flatten_append] at this

theorem Twice.interfaces (h : Twice st l₁ l₂) {t : ObjectType} (ht : t ∈ l₁.objectTypes ++ l₂.objectTypes) {a : Addr}
    (hl : st.schema.lookupType t.type = .ok a) :
    List.Forall₂ (fun n a => st.schema.lookupType n = .ok a) t.interfaces (Spec.interfaces st.ops a) := by
  obtain ⟨ds, es, is, us, fs, os, vs, rs, ds', es', is', us', fs', os', vs', rs', h0, h1, h2⟩ := h.calls
  have := seg_some (f := interfacesF) (R := fun t vs => List.Forall₂ (fun n a => st.schema.lookupType n = .ok a) t.interfaces vs)
    h.inv (List.rel_append (h1.objects.imp fun _ _ hc => hc.interfaces) (h2.objects.imp fun _ _ hc => hc.interfaces))
    (by rw [List.map_append]; exact h.sub (sublists _).2.2.2.2.1 (sublists _).2.2.2.2.1) ht hl
  rw [spec_interfaces, last_nonwrap _ (fun _ _ _ => rfl), h0, last_append, h1.last_interfaces, h2.last_interfaces, ← last_append]
  rwa [List.flatten_append] at this

/-- The types which have fields. -/
def fieldTypes (l : Loader) : List (Str × List OutputField) :=
  (l.interfaceTypes.map fun t => (t.type, t.fields)) ++ l.objectTypes.map fun t => (t.type, t.fields)

theorem Twice.fields (h : Twice st l₁ l₂) {t : Str × List OutputField} (ht : t ∈ fieldTypes l₁ ++ fieldTypes l₂) {a : Addr}
    (hl : st.schema.lookupType t.1 = .ok a) : List.Forall₂ (FieldOk st) t.2 (Spec.fields st.ops a) := by
  obtain ⟨ds, es, is, us, fs, os, vs, rs, ds', es', is', us', fs', os', vs', rs', h0, h1, h2⟩ := h.calls
  have both : ∀ {l : Loader} {ds : List Decl} {es is us fs os vs rs : List (List Op)}, Calls st l ds es is us fs os vs rs →
      List.Forall₂ (fun t c => Seg fieldsF t.1 (fun vs => List.Forall₂ (FieldOk st) t.2 vs) st c) (fieldTypes l) (fs ++ os) := by
    intro l ds es is us fs os vs rs h
    refine List.rel_append ?_ ?_
    · rw [List.forall₂_map_left_iff]
      exact h.interfaces.imp fun _ _ hc => hc.seg fun _ _ _ => rfl
    · rw [List.forall₂_map_left_iff]
      exact h.objects.imp fun _ _ hc => hc.fields
  have names : ∀ l, (fieldTypes l).map (·.1) = l.interfaceTypes.map (·.type) ++ l.objectTypes.map (·.type) := by
    intro l; simp [fieldTypes, Function.comp_def]
  have := seg_some (f := fieldsF) (R := fun t vs => List.Forall₂ (FieldOk st) t.2 vs)
    h.inv (List.rel_append (both h1) (both h2))
    (by rw [List.map_append, names, names]; exact h.sub (sublists _).2.2.2.2.2 (sublists _).2.2.2.2.2) ht hl
  rw [spec_fields, last_nonwrap _ (fun _ _ _ => rfl), h0, last_append, h1.last_fields, h2.last_fields, ← last_append]
  rw [List.flatten_append, List.flatten_append, List.flatten_append] at this
  exact this

/-! ## Implementing objects -/

def implF (i : Addr) : Op → List Addr
  | .addInterfaces a is => (is.filter (· = i)).map fun _ => a
  | _ => []

theorem spec_impl (ops : List Op) (i : Addr) : Spec.implementers ops i = ops.flatMap (implF i) := rfl

theorem impl_nonwrap (ops : List Op) (i : Addr) : ops.flatMap (implF i) = (ops.filter fun o => !isWrap o).flatMap (implF i) := by
  induction ops with
  | nil => rfl
  | cons o ops ih => cases o <;> simp [implF, isWrap, ih]

theorem impl_silent {α : Type} {P : α → List Op → Prop} {i : Addr} (hP : ∀ t c, P t c → ∀ o ∈ c, implF i o = [])
    {ts : List α} {cs : List (List Op)} (h : List.Forall₂ P ts cs) : cs.flatten.flatMap (implF i) = [] := by
  simp only [List.flatMap_eq_nil_iff]
  intro o ho
  obtain ⟨c, hc, ho⟩ := List.mem_flatten.1 ho
  obtain ⟨t, _, hp⟩ := forall₂_right h hc
  exact hP t c hp o ho

theorem impl_opt {β : Type} {op : Addr → List β → Op} {i : Addr} (hop : ∀ a vs, implF i (op a vs) = []) (a : Addr) (vs : List β) :
    ∀ o ∈ optCall op a vs, implF i o = [] := by
  intro o ho
  unfold optCall at ho
  split at ho
  · cases ho
  · simp at ho; rw [ho, hop]

theorem impl_given {β : Type} {op : Addr → List β → Op} {i : Addr} (hop : ∀ a vs, implF i (op a vs) = [])
    {R : BuildState → List β → Prop} {n : Str} {c : List Op} (h : Given op R n st c) : ∀ o ∈ c, implF i o = [] := by
  obtain ⟨a, vs, _, _, rfl⟩ := h
  exact impl_opt hop a vs

theorem Calls.impl {l : Loader} {ds : List Decl} {es is us fs os vs rs : List (List Op)}
    (h : Calls st l ds es is us fs os vs rs) (i : Addr) :
    (ds.flatMap Decl.calls ++ es.flatten ++ is.flatten ++ us.flatten ++ fs.flatten ++ os.flatten ++ vs.flatten ++
      rs.flatten).flatMap (implF i) = os.flatten.flatMap (implF i) := by
  have d : (ds.flatMap Decl.calls).flatMap (implF i) = [] := by
    simp only [List.flatMap_eq_nil_iff, List.mem_flatMap]
    rintro o ⟨d, _, ho⟩
    simp [Decl.calls] at ho
    rcases ho with rfl | rfl <;> rfl
  have v : vs.flatten.flatMap (implF i) = [] := by
    refine impl_silent ?_ h.directives
    rintro d c ⟨v, _, rfl⟩ o ho
    simp at ho; rw [ho]; rfl
  have r : rs.flatten.flatMap (implF i) = [] := by
    refine impl_silent ?_ h.operations
    rintro o c ⟨a, _, rfl⟩ x hx
    unfold rootCalls at hx
    repeat' split at hx
    all_goals first | cases hx; done | (simp at hx; rw [hx]; rfl)
  simp only [List.flatMap_append, d, v, r, impl_silent (i := i) (fun _ _ hc => impl_given (fun _ _ => rfl) hc) h.enums,
    impl_silent (i := i) (fun _ _ hc => impl_given (fun _ _ => rfl) hc) h.inputs,
    impl_silent (i := i) (fun _ _ hc => impl_given (fun _ _ => rfl) hc) h.unions,
    impl_silent (i := i) (fun _ _ hc => impl_given (fun _ _ => rfl) hc) h.interfaces, List.nil_append, List.append_nil]

theorem impl_objects (hi : Inv st) {n : Str} {i : Addr} (hl : st.schema.lookupType n = .ok i) {ts : List ObjectType}
    {cs : List (List Op)} (h : List.Forall₂ (fun t c => GivenBoth t.type t.interfaces t.fields st c) ts cs) :
    List.Forall₂ (fun n a => st.schema.lookupType n = .ok a)
      (ts.flatMap fun o => (o.interfaces.filter (· = n)).map fun _ => o.type) (cs.flatten.flatMap (implF i)) := by
  induction h with
  | nil => exact .nil
  | @cons t c ts cs h1 _ ih =>
    rw [List.flatMap_cons, List.flatten_cons, List.flatMap_append]
    refine List.rel_append ?_ ih
    obtain ⟨a, as, vs, h2, h3, _, rfl⟩ := h1
    rw [List.flatMap_append, List.flatMap_eq_nil_iff.2 (impl_opt (op := .addFields) (fun _ _ => rfl) a vs), List.append_nil]
    have e : (optCall .addInterfaces a as).flatMap (implF i) = (as.filter (· = i)).map fun _ => a := by
      unfold optCall
      split
      · rename_i h; rw [List.isEmpty_iff.1 h]; rfl
      · simp [implF]
    rw [e]
    generalize t.interfaces = is at h3
    clear e
    induction h3 with
    | nil => exact .nil
    | @cons m b is as h4 _ ih =>
      by_cases e : m = n
      · have : b = i := by rw [e, hl] at h4; injection h4 with h4; exact h4.symm
        simp only [List.filter_cons, e, this, decide_true, if_true, List.map_cons]
        exact .cons h2 ih
      · have : b ≠ i := by rintro rfl; exact e (lookup_inj hi h4 hl)
        simp only [List.filter_cons, e, this, decide_false, if_false, Bool.false_eq_true]
        exact ih

theorem Twice.implementers (h : Twice st l₁ l₂) {n : Str} {i : Addr} (hl : st.schema.lookupType n = .ok i) :
    List.Forall₂ (fun n a => st.schema.lookupType n = .ok a) (implementing l₁ n ++ implementing l₂ n)
      (Spec.implementers st.ops i) := by
  obtain ⟨ds, es, is, us, fs, os, vs, rs, ds', es', is', us', fs', os', vs', rs', h0, h1, h2⟩ := h.calls
  rw [spec_impl, impl_nonwrap, h0, List.flatMap_append, h1.impl, h2.impl]
  exact List.rel_append (impl_objects h.inv hl h1.objects) (impl_objects h.inv hl h2.objects)

/-! ## Declarations -/

theorem Twice.declared (h : Twice st l₁ l₂) {k : Kind} {n d : Str} (hk : (k, n, d) ∈ allKeys l₁ ++ allKeys l₂) :
    ∃ a, .make a k n d ∈ st.ops ∧ st.schema.lookupType n = .ok a := by
  obtain ⟨ds, es, is, us, fs, os, vs, rs, ds', es', is', us', fs', os', vs', rs', h0, h1, h2⟩ := h.calls
  rw [← h1.keys, ← h2.keys, ← List.map_append] at hk
  obtain ⟨dc, hd, e⟩ := List.mem_map.1 hk
  simp only [Decl.key, Prod.mk.injEq] at e
  obtain ⟨rfl, rfl, rfl⟩ := e
  have all : ∀ o ∈ dc.calls, o ∈ st.ops := by
    intro o ho
    have : o ∈ st.ops.filter fun o => !isWrap o := by
      rw [h0]
      rcases List.mem_append.1 hd with hd | hd
      · have : o ∈ ds.flatMap Decl.calls := List.mem_flatMap.2 ⟨dc, hd, ho⟩
        simp [this]
      · have : o ∈ ds'.flatMap Decl.calls := List.mem_flatMap.2 ⟨dc, hd, ho⟩
        simp [this]
    exact (List.mem_filter.1 this).1
  refine ⟨dc.addr, all _ (by simp [Decl.calls]), (lookup_iff h.inv.built _ _).2 (named_of_mem h.inv.own.1 ?_)⟩
  simp only [Spec.added, List.mem_filterMap]
  exact ⟨.addType dc.name dc.addr, all _ (by simp [Decl.calls]), rfl⟩

theorem Twice.hasType (h : Twice st l₁ l₂) {k : Kind} {n d : Str} (hk : (k, n, d) ∈ allKeys l₁ ++ allKeys l₂)
    {P : BaseType → Prop}
    (hP : ∀ a t, st.schema.lookupType n = .ok a → 
      Introspection.getFields t (some true) = (if k = .object ∨ k = .interface then some (Spec.fields st.ops a) else none) →
      Introspection.getEnumValues t (some true) = (if k = .enum then some (Spec.enumValues st.ops a) else none) →
      Introspection.getInterfaces t = (if k = .object then some (Spec.interfaces st.ops a) else none) →
      Introspection.getPossibleTypes t =
        (if k = .interface then some (Spec.implementers st.ops a) else if k = .union then some (Spec.unionTypes st.ops a) else none) →
      Introspection.getInputFields t = (if k = .inputObject then some (Spec.inputFields st.ops a) else none) → P t) :
    HasType st.schema n k d P := by
  obtain ⟨a, h1, h2⟩ := h.declared hk
  obtain ⟨t, ht, e1, e2, e3, e4, e5, e6, e7, e8, _⟩ := C38_introspection h.inv.built h1 (some true)
  obtain ⟨_, _, _, _, hne⟩ := Denotes.made h.inv.built h.inv.own h2
  refine ⟨a, t, h2, ht, e1, by rw [e2, nullIfEmpty, if_neg hne], e3, hP a t h2 ?_ ?_ e6 e7 e8⟩
  · simpa [Spec.visible] using e4
  · simpa [Spec.visible] using e5

theorem InputOk.is (hi : Inv st) {f : InputField} {v : InputValue} (h : InputOk st f v) : IsInputValue st.schema f v :=
  ⟨h.name, h.description, h.default, h.type.reads hi.built hi.own, h.type⟩

theorem FieldOk.is (hi : Inv st) {f : OutputField} {v : Field} (h : FieldOk st f v) : IsField st.schema f v :=
  ⟨h.name, h.description, h.deprecation, h.type.reads hi.built hi.own, h.type, h.args.imp fun _ _ h => h.is hi⟩

/-- The schema has the types of both. -/
theorem Twice.has (h : Twice st l₁ l₂) (l : Loader) (hl : (∀ k, k ∈ allKeys l → k ∈ allKeys l₁ ++ allKeys l₂))
    (he : ∀ t ∈ l.enumTypes, t ∈ l₁.enumTypes ++ l₂.enumTypes) (hin : ∀ t ∈ l.inputTypes, t ∈ l₁.inputTypes ++ l₂.inputTypes)
    (hu : ∀ t ∈ l.unionTypes, t ∈ l₁.unionTypes ++ l₂.unionTypes)
    (hf : ∀ t ∈ fieldTypes l, t ∈ fieldTypes l₁ ++ fieldTypes l₂)
    (ho : ∀ t ∈ l.objectTypes, t ∈ l₁.objectTypes ++ l₂.objectTypes)
    (himpl : ∀ t ∈ l.interfaceTypes, implementing l t.type = implementing l₁ t.type ++ implementing l₂ t.type) :
    HasTypes st.schema l := by
  constructor
  · intro t ht
    exact h.hasType (hl _ (by simp only [allKeys, List.mem_append, List.mem_map]; simp; exact ⟨t, ht, rfl, rfl⟩)) (fun _ _ _ _ _ _ _ _ => trivial)
  · intro t ht
    refine h.hasType (hl _ (by simp [allKeys]; exact ⟨t, ht, rfl, rfl⟩)) fun a e hl e1 e2 e3 e4 e5 => ?_
    rw [e2, if_pos rfl, h.enums (he t ht) hl]; rfl
  · intro t ht
    refine h.hasType (hl _ (by simp [allKeys]; exact ⟨t, ht, rfl, rfl⟩)) fun a e hl e1 e2 e3 e4 e5 => ?_
    exact ⟨_, by rw [e5, if_pos rfl], (h.inputs (hin t ht) hl).imp fun _ _ h' => h'.is h.inv⟩
  · intro t ht
    refine h.hasType (hl _ (by simp [allKeys]; exact ⟨t, ht, rfl, rfl⟩)) fun a e hl e1 e2 e3 e4 e5 => ?_
    exact ⟨_, by rw [e4, if_neg (by simp), if_pos rfl], h.unions (hu t ht) hl⟩
  · intro t ht
    refine h.hasType (hl _ (by simp [allKeys]; exact ⟨t, ht, rfl, rfl⟩)) fun a e hl e1 e2 e3 e4 e5 => ?_
    refine ⟨⟨_, by rw [e1, if_pos (by simp)], ?_⟩, _, by rw [e4, if_pos rfl], ?_⟩
    · exact (h.fields (hf (t.type, t.fields) (by simp [fieldTypes]; exact .inl ⟨t, ht, rfl, rfl⟩)) hl).imp fun _ _ h' => h'.is h.inv
    · rw [himpl t ht]; exact h.implementers hl
  · intro t ht
    refine h.hasType (hl _ (by simp [allKeys]; exact ⟨t, ht, rfl, rfl⟩)) fun a e hl e1 e2 e3 e4 e5 => ?_
    refine ⟨⟨_, by rw [e1, if_pos (by simp)], ?_⟩, _, by rw [e3, if_pos rfl], h.interfaces (ho t ht) hl⟩
    exact (h.fields (hf (t.type, t.fields) (by simp [fieldTypes]; exact .inr ⟨t, ht, rfl, rfl⟩)) hl).imp fun _ _ h' => h'.is h.inv

/-! ## The schema itself -/

theorem added_calls {l : Loader} {ds : List Decl} {es is us fs os vs rs : List (List Op)}
    (h : Calls st l ds es is us fs os vs rs) :
    (Spec.added (ds.flatMap Decl.calls)).map (·.1) = typeNames l := by
  rw [← allKeys_names, ← h.keys]
  clear h
  induction ds with
  | nil => rfl
  | cons d ds ih =>
    simp only [List.flatMap_cons, added_append, List.map_append, ih, List.map_cons]
    rfl

/-- The types are looked up in order. -/
theorem types_lookup (hi : Inv st) :
    List.Forall₂ (fun n a => st.schema.lookupType n = .ok a) (names st) (Introspection.getTypes st.schema) := by
  rw [(C38_schema hi.built).1, names, List.forall₂_map_left_iff, List.forall₂_map_right_iff]
  rw [List.forall₂_same]
  rintro ⟨n, a⟩ h
  exact (lookup_iff hi.built _ _).2 (named_of_mem hi.own.1 h)

def directiveF : Op → Option TypeSystem.Directive
  | .addDirective d => some d
  | _ => none

theorem directives_nonwrap (ops : List Op) : ops.filterMap directiveF = (ops.filter fun o => !isWrap o).filterMap directiveF := by
  induction ops with
  | nil => rfl
  | cons o ops ih => cases o <;> simp [List.filterMap_cons, directiveF, isWrap, ih]

theorem directiveF_silent {α : Type} {P : α → List Op → Prop} (hP : ∀ t c, P t c → ∀ o ∈ c, directiveF o = none)
    {ts : List α} {cs : List (List Op)} (h : List.Forall₂ P ts cs) : cs.flatten.filterMap directiveF = [] := by
  rw [List.filterMap_eq_nil_iff]
  intro o ho
  obtain ⟨c, hc, ho⟩ := List.mem_flatten.1 ho
  obtain ⟨t, _, hp⟩ := forall₂_right h hc
  exact hP t c hp o ho

theorem Calls.directiveF {l : Loader} {ds : List Decl} {es is us fs os vs rs : List (List Op)}
    (h : Calls st l ds es is us fs os vs rs) :
    (ds.flatMap Decl.calls ++ es.flatten ++ is.flatten ++ us.flatten ++ fs.flatten ++ os.flatten ++ vs.flatten ++
      rs.flatten).filterMap directiveF = vs.flatten.filterMap directiveF := by
  have d : (ds.flatMap Decl.calls).filterMap Gen.directiveF = [] := by
    simp only [List.filterMap_eq_nil_iff, List.mem_flatMap]
    rintro o ⟨d, _, ho⟩
    simp [Decl.calls] at ho
    rcases ho with rfl | rfl <;> rfl
  have r : rs.flatten.filterMap Gen.directiveF = [] := by
    refine directiveF_silent ?_ h.operations
    rintro o c ⟨a, _, rfl⟩ x hx
    unfold rootCalls at hx
    repeat' split at hx
    all_goals first | cases hx; done | (simp at hx; rw [hx]; rfl)
  simp only [List.filterMap_append, d, r, directiveF_silent (fun _ _ hc => hc.silent fun _ _ => rfl) h.enums,
    directiveF_silent (fun _ _ hc => hc.silent fun _ _ => rfl) h.inputs,
    directiveF_silent (fun _ _ hc => hc.silent fun _ _ => rfl) h.unions,
    directiveF_silent (fun _ _ hc => hc.silent fun _ _ => rfl) h.interfaces,
    directiveF_silent (fun _ _ hc => hc.silent (fun _ _ => rfl) fun _ _ => rfl) h.objects, List.nil_append, List.append_nil]

theorem directives_ok (hi : Inv st) {ts : List DirectiveType} {cs : List (List Op)}
    (h : List.Forall₂ (fun d c => ∃ v, DirectiveOk st d v ∧ c = [.addDirective v]) ts cs) :
    List.Forall₂ (IsSchemaDirective st.schema) ts (cs.flatten.filterMap directiveF) := by
  induction h with
  | nil => exact .nil
  | @cons d c ts cs h1 _ ih =>
    obtain ⟨v, h2, rfl⟩ := h1
    exact .cons ⟨h2.name, h2.description, h2.locations, h2.args.imp fun _ _ h => h.is hi⟩ ih

theorem Twice.directives (h : Twice st l₁ l₂) : List.Forall₂ (IsSchemaDirective st.schema) (l₁.directives ++ l₂.directives)
    (Introspection.getDirectives st.schema) := by
  obtain ⟨ds, es, is, us, fs, os, vs, rs, ds', es', is', us', fs', os', vs', rs', h0, h1, h2⟩ := h.calls
  rw [(C38_schema h.inv.built).2.2.2.2]
  show List.Forall₂ _ _ (st.ops.filterMap Gen.directiveF)
  rw [directives_nonwrap, h0,
    List.filterMap_append, h1.directiveF, h2.directiveF]
  exact List.rel_append (directives_ok h.inv h1.directives) (directives_ok h.inv h2.directives)

/-- The last call for a root operation. -/
theorem root_last {f : Op → Option Addr} {operation : Str} (ho : operation ∈ rootNames)
    (hf : ∀ o a, last f (rootCalls o a) = if o = operation then some a else none) {os : List OperationType}
    {rs : List (List Op)} (h : List.Forall₂ (RootOk st) os rs) (l : Loader) (hl : l.operationTypes = os) :
    IsRoot st.schema l operation (last f rs.flatten) := by
  have key : (last f rs.flatten = none ∧ ∀ o ∈ os, o.operation ≠ operation) ∨
      ∃ a pre o post, last f rs.flatten = some a ∧ os = pre ++ o :: post ∧ o.operation = operation ∧
        (∀ o' ∈ post, o'.operation ≠ operation) ∧ st.schema.lookupType o.type = .ok a := by
    clear hl
    induction h with
    | nil => exact .inl ⟨rfl, by simp⟩
    | @cons o c os rs h1 _ ih =>
      obtain ⟨a, h2, rfl⟩ := h1
      rw [List.flatten_cons, last_append, hf]
      rcases ih with ⟨e, hn⟩ | ⟨b, pre, o', post, e, rfl, h3, h4, h5⟩
      · rw [e]
        by_cases eo : o.operation = operation
        · exact .inr ⟨a, [], o, os, by simp [eo], rfl, eo, hn, h2 (eo ▸ ho)⟩
        · exact .inl ⟨by simp [eo], by simpa [eo] using hn⟩
      · exact .inr ⟨b, o :: pre, o', post, by simp [e], rfl, h3, h4, h5⟩
  rcases key with ⟨e, hn⟩ | ⟨a, pre, o, post, e, h1, h2, h3, h4⟩
  · rw [e, IsRoot, hl]; exact hn
  · rw [e]; exact ⟨pre, o, post, hl ▸ h1, h2, h3, h4⟩

def queryF : Op → Option Addr | .addQueryType a => some a | _ => none
def mutationF : Op → Option Addr | .addMutationType a => some a | _ => none
def subscriptionF : Op → Option Addr | .addSubscriptionType a => some a | _ => none

def isRootCall : Op → Bool
  | .addQueryType _ | .addMutationType _ | .addSubscriptionType _ => true
  | _ => false

theorem Calls.last_root {l : Loader} {ds : List Decl} {es is us fs os vs rs : List (List Op)}
    (h : Calls st l ds es is us fs os vs rs) {f : Op → Option Addr} (hf : ∀ o, isRootCall o = false → f o = none) :
    last f (ds.flatMap Decl.calls ++ es.flatten ++ is.flatten ++ us.flatten ++ fs.flatten ++ os.flatten ++ vs.flatten ++
      rs.flatten) = last f rs.flatten := by
  simp only [last_append, decls_silent (f := f) (fun _ _ _ _ => hf _ rfl) (fun _ _ => hf _ rfl),
    silent_flatten (f := f) (fun _ _ hc => hc.silent fun _ _ => hf _ rfl) h.enums,
    silent_flatten (f := f) (fun _ _ hc => hc.silent fun _ _ => hf _ rfl) h.inputs,
    silent_flatten (f := f) (fun _ _ hc => hc.silent fun _ _ => hf _ rfl) h.unions,
    silent_flatten (f := f) (fun _ _ hc => hc.silent fun _ _ => hf _ rfl) h.interfaces,
    silent_flatten (f := f) (fun _ _ hc => hc.silent (fun _ _ => hf _ rfl) fun _ _ => hf _ rfl) h.objects,
    directives_silent (f := f) h.directives fun _ => hf _ rfl,
    Option.or_none]

theorem Twice.roots (h : Twice st l₁ l₂) (h₁ : l₁.operationTypes = []) :
    IsRoot st.schema l₂ (str "query") (Introspection.getQueryType st.schema) ∧
    IsRoot st.schema l₂ (str "mutation") (Introspection.getMutationType st.schema) ∧
    IsRoot st.schema l₂ (str "subscription") (Introspection.getSubscriptionType st.schema) := by
  obtain ⟨ds, es, is, us, fs, os, vs, rs, ds', es', is', us', fs', os', vs', rs', h0, h1, h2⟩ := h.calls
  obtain ⟨_, e1, e2, e3, _⟩ := C38_schema h.inv.built
  have none₁ : rs = [] := by have := h1.operations; rw [h₁] at this; cases this; rfl
  have d1 : str "mutation" ≠ str "query" := by decide +kernel
  have d2 : str "subscription" ≠ str "query" := by decide +kernel
  have d3 : str "subscription" ≠ str "mutation" := by decide +kernel
  have each : ∀ {f : Op → Option Addr} {operation : Str}, (∀ o, isRootCall o = false → f o = none) →
      operation ∈ rootNames → (∀ o a, last f (rootCalls o a) = if o = operation then some a else none) →
      IsRoot st.schema l₂ operation (last f st.ops) := by
    intro f operation hf ho hc
    rw [last_nonwrap f fun _ _ _ => hf _ rfl, h0, last_append, h1.last_root hf, h2.last_root hf, none₁]
    simp only [List.flatten_nil]
    rw [show last f [] = none from rfl, Option.or_none]
    exact root_last ho hc h2.operations _ rfl
  refine ⟨?_, ?_, ?_⟩
  · rw [e1]
    refine each (f := queryF) (fun o ho => by cases o <;> first | rfl | cases ho) (by simp [rootNames]) ?_
    intro o a
    unfold rootCalls
    repeat' split
    all_goals simp_all [last, queryF]
  · rw [e2]
    refine each (f := mutationF) (fun o ho => by cases o <;> first | rfl | cases ho) (by simp [rootNames]) ?_
    intro o a
    unfold rootCalls
    repeat' split
    all_goals simp_all [last, mutationF]
  · rw [e3]
    refine each (f := subscriptionF) (fun o ho => by cases o <;> first | rfl | cases ho) (by simp [rootNames]) ?_
    intro o a
    unfold rootCalls
    repeat' split
    all_goals simp_all [last, subscriptionF]

end

/-! ## The theorem -/

theorem inv_empty : Inv {} := ⟨.nil, by simp [OwnNames, Spec.added]⟩

theorem known_introspection : Known (typeNames Introspect.types) Introspect.types := by
  constructor <;> decide +kernel

theorem introspection_nodup : (typeNames Introspect.types).Nodup ∧ [] ∉ typeNames Introspect.types := by decide +kernel

theorem Built.unique {ops : List Op} {s s' : Schema} (h : Built ops s) (h' : Built ops s') : s = s' := by
  have key : ∀ {ops s}, Built ops s → s = ops.foldl Schema.apply {} := by
    intro ops s h
    induction h with
    | nil => rfl
    | snoc _ _ ih => rw [List.foldl_append, ← ih]; rfl
  rw [key h, key h']

/-- **C55.** A schema is built from the loaded types exactly if everything which they mention exists, and this schema is what
was loaded: it has the introspection types and the loaded types in order, each with its kind, its description, its members in
order and the types of its members as they were written, the directives and the root types. -/
theorem C55_build {alloc : List Op → Addr} (hf : FreshAddrs alloc) {l : Loader} (hd : DistinctNames l) :
    ((∃ s, buildSchema alloc l = .ok s) ↔ Known (typeNames Introspect.types ++ typeNames l) l) ∧
    ∀ s, buildSchema alloc l = .ok s → BuiltFrom l s := by
  have n0 : names {} = [] := rfl
  have o1 := outcome_addTypes hf Introspect.types inv_empty (by rw [n0]; exact introspection_nodup.1) introspection_nodup.2
  rw [n0, List.nil_append] at o1
  have o : Outcome alloc (do addTypes Introspect.types; addTypes l : Build Unit) {}
      (Known (typeNames Introspect.types ++ typeNames l) l) fun _ st' => BuiltFrom l st'.schema := by
    refine (o1.bind (q := Known (typeNames Introspect.types ++ typeNames l) l) fun _ st₁ ⟨i1, e1, a1⟩ => ?_).mono
      (by simp [known_introspection]) fun _ _ h => h
    have o2 := outcome_addTypes hf l i1 (by rw [e1]; exact hd.1) hd.2
    rw [e1] at o2
    refine o2.mono Iff.rfl fun _ st₂ ⟨i2, e2, a2⟩ => ?_
    obtain ⟨ds, es, is, us, fs, os, vs, rs, s1, c1⟩ := a1
    obtain ⟨ds', es', is', us', fs', os', vs', rs', s2, c2⟩ := a2
    have tw : Twice st₂ Introspect.types l := by
      refine ⟨i2, hd.1, ds, es, is, us, fs, os, vs, rs, ds', es', is', us', fs', os', vs', rs', ?_,
        Calls.stable _ _ _ _ _ _ _ _ _ _ _ _ s2 i1 i2 c1, c2⟩
      obtain ⟨m, g1, _, g3⟩ := (s1.trans s2).more
      rw [g1]
      exact g3
    have impl : ∀ n, implementing Introspect.types n = [] := by
      intro n; simp [implementing, Introspect.types]
    have roots := tw.roots rfl
    refine ⟨⟨_, i2.built, i2.own⟩, ?_, ?_, by rw [← e2]; exact types_lookup i2, tw.directives, roots.1, roots.2.1, roots.2.2⟩
    · refine tw.has _ ?_ ?_ ?_ ?_ ?_ ?_ ?_
      all_goals intro t ht
      case refine_7 => cases ht
      all_goals exact List.mem_append_left _ ht
    · refine tw.has _ ?_ ?_ ?_ ?_ ?_ ?_ ?_
      all_goals intro t ht
      case refine_7 => rw [impl, List.nil_append]
      all_goals exact List.mem_append_right _ ht
  have run : ∀ r, (do addTypes Introspect.types; addTypes l : Build Unit) alloc {} = r → buildSchema alloc l = finished r := by
    intro r h; rw [← h]; exact buildSchema.eq_1 alloc l
  refine ⟨⟨?_, ?_⟩, ?_⟩
  · rintro ⟨s, hs⟩
    by_contra hk
    obtain ⟨c, hc⟩ := o.fails hk
    rw [run _ hc] at hs
    cases hs
  · intro hk
    obtain ⟨a, st', h1, _⟩ := o.ok hk
    exact ⟨_, run _ h1⟩
  · intro s hs
    by_cases hk : Known (typeNames Introspect.types ++ typeNames l) l
    · obtain ⟨a, st', h1, h2⟩ := o.ok hk
      rw [run _ h1] at hs
      injection hs with hs
      exact hs ▸ h2
    · obtain ⟨c, hc⟩ := o.fails hk
      rw [run _ hc] at hs
      cases hs

/-- There is always an unused address. -/
theorem freshAddrs_exists : ∃ alloc, FreshAddrs alloc := by
  classical
  have : ∀ ops : List Op, ∃ a : Addr, ∀ s, Built ops s → s.store a = none := by
    intro ops
    by_cases h : ∃ s, Built ops s
    · obtain ⟨s, hs⟩ := h
      obtain ⟨a, ha⟩ := hs.fresh
      refine ⟨a, fun s' hs' => ?_⟩
      rw [Built.unique hs' hs]
      exact ha a (Nat.le_refl _)
    · exact ⟨0, fun s hs => absurd ⟨s, hs⟩ h⟩
  choose f hf using this
  exact ⟨f, fun ops s hs => hf ops s hs⟩

end Verif.Gen
