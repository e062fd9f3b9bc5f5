import Verif.GenObject.ReadAll
import Verif.GenObject.Runs
import Verif.GenCode.Claims

/-!
# C74: the classes of objects
-/
namespace Verif.GenObject
open Verif.Value Verif.Resp Verif.Errors Verif.Text Verif.GenCode Verif.Gen.Service
open Verif.Modifiers (Mod Arg)
open Verif.Gen (InputField ObjectType OutputField)
open Verif.Gen.Client (Data)
open Verif.GenText (cpp IsNamespace)
open Verif.Cpp (Path path word)
open Verif.Cpp.Code (Expr Stmt Function Entry Constructor Method ReadsClass ReadsFunctions)
open Verif.TypeSystem (nameCmp nameCmp_strictWeak)

variable {print : Double → Str} {read : Str → Double} {T : Types} {ns : Str} {q : Path} {introspection : Bool} {t : ObjectType}

/-! ## The map -/

theorem insert_perm {α : Type} {k : Str} (v : α) {m : List (Str × α)} (h : k ∉ m.map (·.1)) : (insert k v m).Perm ((k, v) :: m) := by
  induction m with
  | nil => exact .refl _
  | cons x m ih =>
    obtain ⟨l, w⟩ := x
    simp only [List.map_cons, List.mem_cons, not_or] at h
    simp only [insert]
    split
    · exact .refl _
    · split
      · exact ((ih h.2).cons _).trans (.swap _ _ _)
      · rename_i h1 h2
        exact absurd (nameCmp_eq h1 h2) h.1

theorem assign_perm {α : Type} {k : Str} (v : α) {m : List (Str × α)} (h : k ∉ m.map (·.1)) : (assign k v m).Perm ((k, v) :: m) := by
  induction m with
  | nil => exact .refl _
  | cons x m ih =>
    obtain ⟨l, w⟩ := x
    simp only [List.map_cons, List.mem_cons, not_or] at h
    simp only [assign]
    split
    · exact .refl _
    · split
      · exact ((ih h.2).cons _).trans (.swap _ _ _)
      · rename_i h1 h2
        exact absurd (nameCmp_eq h1 h2) h.1

/-- The keys are in order. -/
def Sorted {α : Type} (m : List (Str × α)) : Prop := m.Pairwise fun x y => nameCmp x.1 y.1 = true

theorem insert_sorted {α : Type} (k : Str) (v : α) {m : List (Str × α)} (h : Sorted m) : Sorted (insert k v m) := by
  induction m with
  | nil => simp [insert, Sorted]
  | cons x m ih =>
    obtain ⟨l, w⟩ := x
    unfold Sorted at h ih ⊢
    rw [List.pairwise_cons] at h
    simp only [insert]
    split
    · rename_i hk
      rw [List.pairwise_cons, List.pairwise_cons]
      refine ⟨fun y hy => ?_, h⟩
      rcases List.mem_cons.1 hy with rfl | hy
      · exact hk
      · exact nameCmp_strictWeak.trans _ _ _ hk (h.1 y hy)
    · split
      · rename_i hk
        rw [List.pairwise_cons]
        refine ⟨fun y hy => ?_, ih h.2⟩
        rcases insert_mem hy with rfl | hy
        · exact hk
        · exact h.1 y hy
      · rw [List.pairwise_cons]; exact h

theorem assign_sorted {α : Type} (k : Str) (v : α) {m : List (Str × α)} (h : Sorted m) : Sorted (assign k v m) := by
  induction m with
  | nil => simp [assign, Sorted]
  | cons x m ih =>
    obtain ⟨l, w⟩ := x
    unfold Sorted at h ih ⊢
    rw [List.pairwise_cons] at h
    simp only [assign]
    split
    · rename_i hk
      rw [List.pairwise_cons, List.pairwise_cons]
      refine ⟨fun y hy => ?_, h⟩
      rcases List.mem_cons.1 hy with rfl | hy
      · exact hk
      · exact nameCmp_strictWeak.trans _ _ _ hk (h.1 y hy)
    · split
      · rename_i hk
        rw [List.pairwise_cons]
        refine ⟨fun y hy => ?_, ih h.2⟩
        rcases assign_mem hy with rfl | hy
        · exact hk
        · exact h.1 y hy
      · rw [List.pairwise_cons]; exact h

theorem fold_perm {α : Type} (e : Str → Str → α) (method : OutputField → Str) (fs : List OutputField) (m : List (Str × α))
    (h : (m.map (·.1) ++ fs.map (·.name)).Nodup) :
    (fs.foldl (fun m f => insert f.name (e f.name (method f)) m) m).Perm (m ++ fs.map fun f => (f.name, e f.name (method f))) := by
  induction fs generalizing m with
  | nil => simp
  | cons f fs ih =>
    have hf : f.name ∉ m.map (·.1) := fun hm => by
      have := List.nodup_append.1 h
      exact this.2.2 _ hm _ (by simp) rfl
    have hp := insert_perm (e f.name (method f)) hf
    rw [List.foldl_cons]
    refine (ih _ ?_).trans ?_
    · refine (List.Perm.nodup_iff ?_).1 h
      rw [List.map_cons]
      refine (List.perm_middle.trans ?_)
      exact ((hp.map (·.1)).symm).append_right _
    · rw [List.map_cons]
      exact (hp.append_right _).trans List.perm_middle.symm

theorem fold_sorted {α : Type} (e : Str → Str → α) (method : OutputField → Str) (fs : List OutputField) (m : List (Str × α))
    (h : Sorted m) : Sorted (fs.foldl (fun m f => insert f.name (e f.name (method f)) m) m) := by
  induction fs generalizing m with
  | nil => exact h
  | cons f fs ih => exact ih _ (insert_sorted _ _ h)

theorem resolvers_sorted {α : Type} (e : Str → Str → α) (method : OutputField → Str) (b : Bool) (fs : List OutputField) :
    Sorted (resolvers e method b fs) := by
  have h := assign_sorted (str "__typename") (e (str "__typename") (str "resolve_typename"))
    (fold_sorted e method fs [] List.Pairwise.nil)
  unfold resolvers
  dsimp only
  split
  · exact assign_sorted _ _ (assign_sorted _ _ h)
  · exact h

/-- The method of a field which every object has, or the object for queries. -/
def hiddenMethod (n : Str) : Str :=
  if n = str "__typename" then str "resolve_typename" else if n = str "__schema" then str "resolve_schema" else str "resolve_type"

theorem resolvers_perm {α : Type} (e : Str → Str → α) (method : OutputField → Str) (b : Bool) {fs : List OutputField}
    (hn : (fs.map (·.name)).Nodup) (hr : ∀ f ∈ fs, f.name ∉ hiddenFields b) :
    (resolvers e method b fs).Perm (fs.map (fun f => (f.name, e f.name (method f))) ++
      (hiddenFields b).map fun n => (n, e n (hiddenMethod n))) := by
  have h1 := fold_perm e method fs [] (by simpa using hn)
  rw [List.nil_append] at h1
  have key : ∀ {m m' : List (Str × α)} (k : Str) (v : α), m.Perm m' → k ∉ m'.map (·.1) → (assign k v m).Perm ((k, v) :: m') :=
    fun k v hp hk => (assign_perm v (fun hm => hk (((hp.map (·.1)).mem_iff).1 hm))).trans (hp.cons _)
  have hk : ∀ n ∈ hiddenFields b, n ∉ fs.map (·.name) := by
    intro n hn hm
    obtain ⟨f, hf, rfl⟩ := List.mem_map.1 hm
    exact hr f hf hn
  have em : (fs.map fun f => (f.name, e f.name (method f))).map (·.1) = fs.map (·.name) := by rw [List.map_map]; rfl
  have h2 := key (str "__typename") (e (str "__typename") (str "resolve_typename")) h1 (by
    rw [em]; exact hk _ (by cases b <;> simp [hiddenFields]))
  unfold resolvers
  dsimp only
  cases b with
  | false =>
    refine h2.trans ?_
    exact (List.perm_append_comm (l₁ := [_]) (l₂ := fs.map _))
  | true =>
    simp only [if_true]
    have h3 := key (str "__schema") (e (str "__schema") (str "resolve_schema")) h2 (by
      rw [List.map_cons, em, List.mem_cons, not_or]
      exact ⟨(by decide : str "__schema" ≠ str "__typename"), hk _ (by simp [hiddenFields])⟩)
    have h4 := key (str "__type") (e (str "__type") (str "resolve_type")) h3 (by
      rw [List.map_cons, List.map_cons, em, List.mem_cons, List.mem_cons, not_or, not_or]
      exact ⟨(by decide : str "__type" ≠ str "__schema"), (by decide : str "__type" ≠ str "__typename"), hk _ (by simp [hiddenFields])⟩)
    refine h4.trans ?_
    refine List.Perm.trans ?_ (List.perm_append_comm (l₁ := [_, _, _]) (l₂ := fs.map _))
    exact ((List.reverse_perm [_, _, _]).append_right _ : List.Perm ([_, _, _].reverse ++ _) _)

/-! ## The class can be read in one way -/

/-- What is written for an object type is a constructor and methods, in one way only. -/
theorem C74_code (hn : IsNamespace ns q) (h : WrittenOk print read t) :
    ∃! c : Constructor × List Method, ReadsClass (objectText print ns introspection t) c.1 c.2 := by
  refine ⟨(_, _), reads_object hn h, fun c hc => ?_⟩
  obtain ⟨h1, h2⟩ := hc.unique (reads_object hn h)
  exact Prod.ext h1 h2

variable {k : Constructor} {ms : List Method}

/-- The object says that it is of its interfaces and unions, and of its own type. -/
theorem C74_types (hn : IsNamespace ns q) (h : WrittenOk print read t) (hr : ReadsClass (objectText print ns introspection t) k ms) :
    k.types = t.interfaces ++ t.unions ++ [t.type] ∧ k.schema = introspection := by
  obtain ⟨rfl, -⟩ := hr.unique (reads_object hn h)
  exact ⟨rfl, rfl⟩

/-- No method is written twice, just if the names of the fields give different methods. -/
theorem C74_methods (hn : IsNamespace ns q) (h : WrittenOk print read t) (hr : ReadsClass (objectText print ns introspection t) k ms) :
    (ms.map fun m => (m.c, m.f)).Nodup ↔ (t.fields.map capital ++ [str "_typename"]).Nodup := by
  obtain ⟨-, rfl⟩ := hr.unique (reads_object hn h)
  have : (methods (numberE print) q t).map (fun m => (m.c, m.f)) =
      (t.fields.map capital ++ [str "_typename"]).map fun s => (cpp t.type, str "resolve" ++ s) := by
    simp [methods, resolverM, typenameM, resolver, Function.comp_def]
    decide
  rw [this]
  exact List.nodup_map_iff fun a b e => List.append_cancel_left (congrArg Prod.snd e)

/-- The table of the object has an entry for each field, for `__typename`, and for `__schema` and `__type` if it is the object for
queries; nothing else; in the order of `shorter_or_less`. -/
theorem C74_fields (hn : IsNamespace ns q) (h : ObjectOk print read T introspection t)
    (hr : ReadsClass (objectText print ns introspection t) k ms) :
    (k.entries.map (·.name)).Perm (t.fields.map (·.name) ++ hiddenFields introspection) ∧
    (k.entries.map (·.name)).Pairwise fun a b => nameCmp a b = true := by
  obtain ⟨rfl, -⟩ := hr.unique (reads_object hn h.toWrittenOk)
  have e : ((constructorK introspection t).entries.map (·.name)) =
      (resolvers Entry.mk resolver introspection t.fields).map (·.1) := by
    simp only [constructorK, List.map_map]
    refine List.map_congr_left fun x hx => ?_
    rcases resolvers_mem hx with ⟨f, hf, rfl⟩ | rfl | rfl | rfl <;> rfl
  rw [e]
  refine ⟨?_, List.pairwise_map.2 (resolvers_sorted _ _ _ _)⟩
  refine ((resolvers_perm Entry.mk resolver introspection h.names h.reserved).map (·.1)).trans ?_
  rw [List.map_append, List.map_map, List.map_map]
  refine .of_eq ?_
  congr 1
  exact List.map_id _

/-! ## Answers -/

theorem find_perm {α : Type} {l l' : List α} {g : α → Str} (hp : l.Perm l') (hn : (l'.map g).Nodup) {x : α} (hx : x ∈ l') :
    l.find? (fun y => g y = g x) = some x := by
  have hn' : (l.map g).Nodup := ((hp.map g).nodup_iff).2 hn
  have hx' : x ∈ l := hp.mem_iff.2 hx
  clear hp hn hx
  induction l with
  | nil => cases hx'
  | cons y l ih =>
    rw [List.map_cons, List.nodup_cons] at hn'
    rw [List.find?_cons]
    rcases List.mem_cons.1 hx' with rfl | hm
    · simp
    · have hne : g y ≠ g x := fun e => hn'.1 (e ▸ List.mem_map_of_mem hm)
      simp only [hne, decide_false]
      exact ih hn'.2 hm

theorem filter_one {α β : Type} [DecidableEq β] {l : List α} {g : α → β} (hn : (l.map g).Nodup) {x : α} (hx : x ∈ l) :
    (l.filter fun y => g y = g x) = [x] := by
  induction l with
  | nil => cases hx
  | cons y l ih =>
    rw [List.map_cons, List.nodup_cons] at hn
    rcases List.mem_cons.1 hx with rfl | hm
    · rw [List.filter_cons_of_pos (by simp)]
      congr 1
      rw [List.filter_eq_nil_iff]
      intro z hz
      simp only [decide_eq_true_eq]
      intro e
      exact hn.1 (e ▸ List.mem_map_of_mem hz)
    · have hne : g y ≠ g x := fun e => hn.1 (e ▸ List.mem_map_of_mem hm)
      rw [List.filter_cons_of_neg (by simp [hne])]
      exact ih hn.2 hm

theorem answer_of (hn : IsNamespace ns q) (h : ObjectOk print read T introspection t)
    (hr : ReadsClass (objectText print ns introspection t) k ms) {e : Entry} (he : e ∈ k.entries) {m : Method} (hm : m ∈ ms)
    (hf : m.f = e.method) (W : World) (args : Resp) : answer W k ms e.name args = some (run W m args) := by
  have hd : (ms.map fun m => (m.c, m.f)).Nodup := (C74_methods hn h.toWrittenOk hr).2
    (h.distinct.sublist (List.Sublist.append_left (by cases introspection <;> decide) _))
  have hk : (k.entries.map (·.name)).Nodup := by
    refine (((C74_fields hn h hr).1).nodup_iff).2 ?_
    rw [List.nodup_append]
    refine ⟨h.names, by cases introspection <;> decide, fun a ha b hb e => ?_⟩
    obtain ⟨f, hf, rfl⟩ := List.mem_map.1 ha
    exact h.reserved f hf (e ▸ hb)
  have hc : m.c = k.c := by
    obtain ⟨rfl, rfl⟩ := hr.unique (reads_object hn h.toWrittenOk)
    simp only [methods, List.mem_append, List.mem_map, List.mem_singleton] at hm
    rcases hm with ⟨f, -, rfl⟩ | rfl <;> rfl
  rw [answer, find_perm (g := Entry.name) (.refl _) hk he]
  have := filter_one (g := fun m : Method => (m.c, m.f)) hd hm
  simp only [Prod.mk.injEq, hc, hf] at this
  simp only [Option.map_some, this]

/-- The object is asked for a field. The arguments are those of which C58 and C59 say so (C73); if there is none, this is the
exception, and nothing else happens. The accessor of this field is called once, with these arguments in their order, while the mutex
of the object is locked; its result is converted as a value of the type of the field, after the mutex is unlocked. If the accessor
throws, the mutex is unlocked, and this is the exception. -/
theorem C74_answer (hn : IsNamespace ns q) (hT : TypesOk print read T q) {fs : List Function}
    (hfs : ReadsFunctions (T.inputs.flatMap (inputText print ns)) fs) (h : ObjectOk print read T introspection t)
    (hr : ReadsClass (objectText print ns introspection t) k ms) {f : OutputField} (hf : f ∈ t.fields)
    (accessor : Str → List (Arg Data) → Option Exn) (depth : Nat) (arguments : Members) :
    let name := f.accessor ++ capital f
    answer ⟨⟨read, convertWith read (knownConversions T q) (structures T q) fs depth⟩, accessor⟩ k ms f.name (.map arguments) =
      some (match resolverArguments T depth f.arguments arguments with
        | .ok as =>
          match accessor name (as.map (·.2)) with
          | none => ([.lock, .call name (as.map (·.2)), .unlock, .convert (resultPath f) f.modifiers .result], .ok ())
          | some e => ([.lock, .call name (as.map (·.2)), .unlock], .throws e)
        | .error e => ([], .throws e)
        | .depth => ([], .depth)) := by
  obtain ⟨rfl, rfl⟩ := hr.unique (reads_object hn h.toWrittenOk)
  have he : Entry.mk f.name (resolver f) ∈ (constructorK introspection t).entries := by
    simp only [constructorK, List.mem_map]
    exact ⟨(f.name, ⟨f.name, resolver f⟩), (resolvers_perm Entry.mk resolver introspection h.names h.reserved).mem_iff.2
      (by simp only [List.mem_append, List.mem_map]; exact .inl ⟨f, hf, rfl⟩), rfl⟩
  have ha := answer_of hn h hr he (m := resolverM (numberE print) q t f)
    (by simp only [methods, List.mem_append, List.mem_map]; exact .inl ⟨f, hf, rfl⟩) rfl
    ⟨⟨read, convertWith read (knownConversions T q) (structures T q) fs depth⟩, accessor⟩ (.map arguments)
  dsimp only at ha ⊢
  rw [ha, run, run_resolver (h.arguments f hf) (c := convert T depth)
    (fun a hm v => C73_convert hn hT hfs depth a (h.known f hf a hm) v) (.map arguments), resolverArguments]
  cases getArguments (convert T depth) (defaults f.arguments) f.arguments (.map arguments) with
  | error e => rfl
  | depth => rfl
  | ok as =>
    dsimp only [events]
    cases accessor (f.accessor ++ capital f) (as.map (·.2)) <;> rfl

/-- `__typename` is the name of the type, whatever the arguments are. -/
theorem C74_typename (hn : IsNamespace ns q) (h : ObjectOk print read T introspection t)
    (hr : ReadsClass (objectText print ns introspection t) k ms) (W : World) (arguments : Resp) :
    answer W k ms (str "__typename") arguments =
      some ([.convert (path "response" ["StringType"]) [] (.text t.type)], .ok ()) := by
  obtain ⟨rfl, rfl⟩ := hr.unique (reads_object hn h.toWrittenOk)
  have he : Entry.mk (str "__typename") (str "resolve_typename") ∈ (constructorK introspection t).entries := by
    simp only [constructorK, List.mem_map]
    refine ⟨(str "__typename", ⟨str "__typename", str "resolve_typename"⟩),
      (resolvers_perm Entry.mk resolver introspection h.names h.reserved).mem_iff.2 ?_, rfl⟩
    simp only [List.mem_append, List.mem_map]
    exact .inr ⟨str "__typename", by cases introspection <;> simp [hiddenFields], by simp [hiddenMethod]⟩
  have ha := answer_of hn h hr he (m := typenameM t) (by simp [methods]) rfl W arguments
  dsimp only at ha
  rw [ha, run, run_typename h.type.1]
  rfl

/-- There is no other field. -/
theorem C74_unknown (hn : IsNamespace ns q) (h : ObjectOk print read T introspection t)
    (hr : ReadsClass (objectText print ns introspection t) k ms) (W : World) (name : Str) (arguments : Resp)
    (hname : name ∉ t.fields.map (·.name) ++ hiddenFields introspection) : answer W k ms name arguments = none := by
  have : k.entries.find? (fun e => e.name = name) = none := by
    rw [List.find?_eq_none]
    intro e he hx
    refine hname ((C74_fields hn h hr).1.mem_iff.1 ?_)
    rw [← of_decide_eq_true hx]
    exact List.mem_map_of_mem he
  simp [answer, this]

end Verif.GenObject
