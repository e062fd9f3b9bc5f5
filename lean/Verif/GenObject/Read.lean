import Verif.GenObject.Tree
import Verif.GenCode.ReadAll

/-!
# Reading the text of a class
-/
namespace Verif.GenObject
open Verif.Value Verif.Resp Verif.Text Verif.GenCode
open Verif.Gen (InputField ObjectType OutputField getTypeModifiers toUpper)
open Verif.Gen.Service (Types)
open Verif.GenText
open Verif.Cpp (Path path word Tok p kw Lexes StartsB commaTokens keywords NoClose)
open Verif.Cpp.Code (Expr Stmt Entry Constructor Method templateTokens)
open Verif.Modifiers (Mod)
open Verif.TypeSystem (nameCmp)

variable {print : Double → Str} {read : Str → Double} {T : Types} {ns : Str} {q : Path} {introspection : Bool} {t : ObjectType}

/-! ## Names -/

theorem capital_name {f : OutputField} (h : IsName f.name) : IsName (capital f) := by
  obtain ⟨c, cs, e, h1, h2⟩ := cpp_name h
  have key : ∀ c : Byte, nameStart c = true → nameStart (toUpper c) = true := by decide +kernel
  exact ⟨toUpper c, cs, by rw [capital, e], key c h1, h2⟩

theorem res_word (n : Str) : str "resolve" ++ n ∉ keywords := by
  intro hm
  have : ∀ k ∈ keywords, k.take 3 ≠ str "res" := by decide +kernel
  exact this _ hm rfl

theorem get_word (n : Str) : str "get" ++ n ∉ keywords :=
  not_keyword (Cpp.chr 'g') (Cpp.chr 'e') (str "t" ++ n) (by rfl) (by decide +kernel)
theorem apply_word (n : Str) : str "apply" ++ n ∉ keywords :=
  not_keyword (Cpp.chr 'a') (Cpp.chr 'p') (str "ply" ++ n) (by rfl) (by decide +kernel)

theorem piece_resolver {f : OutputField} (h : IsName f.name) : Piece (resolver f) [.word (resolver f)] :=
  Piece.word (IsName.prefix (isName_lit (by decide)) (capital_name h)) (res_word _)

theorem piece_accessor {f : OutputField} (h : IsName f.name) (ha : f.accessor = str "get" ∨ f.accessor = str "apply") :
    Piece (f.accessor ++ capital f) [.word (f.accessor ++ capital f)] := by
  rcases ha with ha | ha <;> rw [ha]
  · exact Piece.word (IsName.prefix (isName_lit (by decide)) (capital_name h)) (get_word _)
  · exact Piece.word (IsName.prefix (isName_lit (by decide)) (capital_name h)) (apply_word _)

theorem piece_class (h : IsName t.type ∧ cpp t.type ∉ keywords) : Piece (cpp t.type) [.word (cpp t.type)] :=
  Piece.word (cpp_name h.1) h.2

theorem start_name {s : Str} (h : IsName s) : ∃ c r, s = c :: r ∧ nameStart c = true := by
  obtain ⟨c, cs, e, h1, -⟩ := h
  exact ⟨c, cs, e, h1⟩

theorem piece_result {f : OutputField} (h : IsName f.type ∧ cpp f.type ∉ keywords) :
    Piece (resultText f) (resultPath f).tokens ∧ ∃ c r, resultText f = c :: r ∧ nameStart c = true := by
  have ho : Piece (str "service::Object") (path "service" ["Object"]).tokens := by
    have := piece_known (a := "service") (bs := ["Object"]) (known_ok (by decide) (by decide) (by decide +kernel) (by decide +kernel))
    have e : str "service::Object" = str "service" ++ (str "::" ++ str "Object") := by decide
    simpa [e] using this
  unfold resultText resultPath
  cases f.fieldType with
  | builtin => exact ⟨piece_builtin _, start_builtin _⟩
  | enum => exact ⟨Piece.word (cpp_name h.1) h.2, start_name (cpp_name h.1)⟩
  | object => exact ⟨Piece.word (cpp_name h.1) h.2, start_name (cpp_name h.1)⟩
  | scalar => exact ⟨piece_response (b := "Value") (by decide) (by decide +kernel), ⟨_, _, rfl, by decide⟩⟩
  | union => exact ⟨ho, ⟨_, _, rfl, by decide⟩⟩
  | interface => exact ⟨ho, ⟨_, _, rfl, by decide⟩⟩

/-! ## The map -/

theorem insert_map {α β : Type} (g : α → β) (k : Str) (v : α) (m : List (Str × α)) :
    insert k (g v) (m.map fun x => (x.1, g x.2)) = (insert k v m).map fun x => (x.1, g x.2) := by
  induction m with
  | nil => rfl
  | cons x m ih =>
    obtain ⟨l, w⟩ := x
    simp only [List.map_cons, insert]
    split
    · rfl
    · split
      · rw [ih]; rfl
      · rfl

theorem assign_map {α β : Type} (g : α → β) (k : Str) (v : α) (m : List (Str × α)) :
    assign k (g v) (m.map fun x => (x.1, g x.2)) = (assign k v m).map fun x => (x.1, g x.2) := by
  induction m with
  | nil => rfl
  | cons x m ih =>
    obtain ⟨l, w⟩ := x
    simp only [List.map_cons, assign]
    split
    · rfl
    · split
      · rw [ih]; rfl
      · rfl

theorem resolvers_map {α β : Type} (e : Str → Str → α) (g : α → β) (method : OutputField → Str) (b : Bool) (fs : List OutputField) :
    resolvers (fun n m => g (e n m)) method b fs = (resolvers e method b fs).map fun x => (x.1, g x.2) := by
  have h : ∀ m : List (Str × α), fs.foldl (fun m f => insert f.name (g (e f.name (method f))) m) (m.map fun x => (x.1, g x.2)) =
      (fs.foldl (fun m f => insert f.name (e f.name (method f)) m) m).map fun x => (x.1, g x.2) := by
    induction fs with
    | nil => intro m; rfl
    | cons f fs ih => intro m; rw [List.foldl_cons, insert_map, ih]; rfl
  have h0 := h []
  rw [List.map_nil] at h0
  unfold resolvers
  simp only [h0, assign_map]
  split <;> rfl

/-- What is in the map was put there. -/
theorem insert_mem {α : Type} {k : Str} {v : α} {m : List (Str × α)} {x} (h : x ∈ insert k v m) : x = (k, v) ∨ x ∈ m := by
  induction m with
  | nil => simp [insert] at h; exact .inl h
  | cons y m ih =>
    obtain ⟨l, w⟩ := y
    simp only [insert] at h
    split at h
    · simpa using h
    · split at h
      · simp only [List.mem_cons] at h ⊢
        rcases h with h | h
        · exact .inr (.inl h)
        · exact (ih h).imp id .inr
      · exact .inr h

theorem nameCmp_eq {a b : Str} (h : ¬nameCmp a b) (k : ¬nameCmp b a) : a = b := by
  have := (TypeSystem.same_name a b).1 (by simp [Verif.SortedMap.Spec.same, h, k])
  exact this

theorem assign_mem {α : Type} {k : Str} {v : α} {m : List (Str × α)} {x} (h : x ∈ assign k v m) : x = (k, v) ∨ x ∈ m := by
  induction m with
  | nil => simp [assign] at h; exact .inl h
  | cons y m ih =>
    obtain ⟨l, w⟩ := y
    simp only [assign] at h
    split at h
    · simpa using h
    · split at h
      · simp only [List.mem_cons] at h ⊢
        rcases h with h | h
        · exact .inr (.inl h)
        · exact (ih h).imp id .inr
      · rename_i h1 h2
        rw [nameCmp_eq h1 h2]
        simp only [List.mem_cons] at h ⊢
        exact h.imp id .inr

theorem fold_mem {α : Type} {e : Str → Str → α} {method : OutputField → Str} {fs : List OutputField} {m : List (Str × α)} {x}
    (h : x ∈ fs.foldl (fun m f => insert f.name (e f.name (method f)) m) m) :
    x ∈ m ∨ ∃ f ∈ fs, x = (f.name, e f.name (method f)) := by
  induction fs generalizing m with
  | nil => exact .inl h
  | cons f fs ih =>
    rcases ih h with h | ⟨g, hg, rfl⟩
    · rcases insert_mem h with rfl | h
      · exact .inr ⟨f, by simp, rfl⟩
      · exact .inl h
    · exact .inr ⟨g, by simp [hg], rfl⟩

theorem resolvers_mem {α : Type} {e : Str → Str → α} {method : OutputField → Str} {b : Bool} {fs : List OutputField} {x}
    (h : x ∈ resolvers e method b fs) : (∃ f ∈ fs, x = (f.name, e f.name (method f))) ∨
      x = (str "__typename", e (str "__typename") (str "resolve_typename")) ∨
      x = (str "__schema", e (str "__schema") (str "resolve_schema")) ∨ x = (str "__type", e (str "__type") (str "resolve_type")) := by
  have key : ∀ {x}, x ∈ assign (str "__typename") (e (str "__typename") (str "resolve_typename"))
      (fs.foldl (fun m f => insert f.name (e f.name (method f)) m) []) → (∃ f ∈ fs, x = (f.name, e f.name (method f))) ∨
      x = (str "__typename", e (str "__typename") (str "resolve_typename")) := by
    intro x h
    rcases assign_mem h with rfl | h
    · exact .inr rfl
    · rcases fold_mem h with h | h
      · cases h
      · exact .inl h
  unfold resolvers at h
  dsimp only at h
  split at h
  · rcases assign_mem h with rfl | h
    · simp
    · rcases assign_mem h with rfl | h
      · simp
      · rcases key h with h | h
        · exact .inl h
        · exact .inr (.inl h)
  · rcases key h with h | h
    · exact .inl h
    · exact .inr (.inl h)

/-! ## The constructor -/

theorem piece_entry {n m : Str} (hn : IsName n) (hm : IsName m) (km : m ∉ keywords) :
    Piece (entryText n m) (Entry.mk n m).tokens := by
  have l1 : Closed (str "\t\t{ ") [p "{"] := Closed.lit _ (by decide +kernel)
  have l2 : Closed (str ", [this](service::ResolverParams&& params) { return ") ([p ",", p "[", kw "this", p "]", p "("] ++
    (path "service" ["ResolverParams"]).tokens ++ [p "&&", .word (str "params"), p ")", p "{", kw "return"]) :=
    Closed.lit _ (by decide +kernel)
  have l3 : Closed (str "(std::move(params)); } }") ([p "("] ++ (path "std" ["move"]).tokens ++
    [p "(", .word (str "params"), p ")", p ")", p ";", p "}", p "}"]) := Closed.lit _ (by decide +kernel)
  refine Piece.of ((((l1.thenP (piece_gql (gql_name hn))).then l2 (Begins.lit (by decide))).thenP (Piece.word hm km)).then l3
    (Begins.lit (by decide))).piece ?_ ?_
  · simp only [entryText, List.append_assoc]
  · simp [Entry.tokens]

theorem hidden_name {n : Str} (h : n = str "__typename" ∨ n = str "__schema" ∨ n = str "__type") : IsName n := by
  rcases h with rfl | rfl | rfl <;> exact isName_lit (by decide)

theorem piece_entries (h : ∀ f ∈ t.fields, IsName f.name) :
    Piece (commas ((resolvers entryText resolver introspection t.fields).map (·.2)))
      (commaTokens (((resolvers Entry.mk resolver introspection t.fields).map (·.2)).map Entry.tokens)) := by
  have e : resolvers entryText resolver introspection t.fields =
      (resolvers Entry.mk resolver introspection t.fields).map fun x => (x.1, entryText x.2.name x.2.method) :=
    resolvers_map Entry.mk (fun x => entryText x.name x.method) resolver introspection t.fields
  rw [e, List.map_map, List.map_map]
  refine piece_commas' (forall₂_map fun x hx => ?_)
  rcases resolvers_mem hx with ⟨f, hf, rfl⟩ | rfl | rfl | rfl
  · exact piece_entry (h f hf) (IsName.prefix (isName_lit (by decide)) (capital_name (h f hf))) (res_word _)
  · exact piece_entry (isName_lit (by decide)) (isName_lit (by decide)) (by decide +kernel)
  · exact piece_entry (isName_lit (by decide)) (isName_lit (by decide)) (by decide +kernel)
  · exact piece_entry (isName_lit (by decide)) (isName_lit (by decide)) (by decide +kernel)

theorem commaTokens_append (xs : List (List Tok)) (y : List Tok) :
    commaTokens (xs ++ [y]) = xs.flatMap (fun x => x ++ [p ","]) ++ y := by
  induction xs with
  | nil => simp [commaTokens]
  | cons x xs ih =>
    cases xs with
    | nil => simp [commaTokens]
    | cons z xs =>
      simp only [List.cons_append, commaTokens] at ih ⊢
      simp [ih]

theorem closed_names (xs : List Str) (h : ∀ x ∈ xs, IsName x) :
    Closed (xs.flatMap fun i => str "\t\t\"" ++ i ++ str "\",\n") (xs.flatMap fun x => [Tok.text x false] ++ [p ","]) := by
  refine closed_flatMap fun x hx => ?_
  have l1 : Closed (str "\t\t") [] := Closed.lit _ (by decide +kernel)
  refine Closed.of ((l1.thenP (piece_quoted (h x hx))).then lit_comma (Begins.lit (by decide))) ?_ (by simp)
  have e1 : str "\t\t\"" = str "\t\t" ++ str "\"" := by decide
  have e2 : str "\",\n" = str "\"" ++ str ",\n" := by decide
  simp only [e1, e2, List.append_assoc]

theorem closed_constructor (h : WrittenOk print read t) :
    Closed (constructorText introspection t) (constructorK introspection t).tokens := by
  have hc := piece_class h.type
  have l1 : Closed (str "::") [p "::"] := Closed.lit _ (by decide +kernel)
  have l2 : Closed (str "()\n\t: service::Object({\n") ([p "(", p ")", p ":"] ++ (path "service" ["Object"]).tokens ++ [p "(", p "{"]) :=
    Closed.lit _ (by decide +kernel)
  have h1 := closed_names t.interfaces fun i hi => h.interfaces i (by simp [hi])
  have h2 := closed_names t.unions fun i hi => h.interfaces i (by simp [hi])
  have l3 : Closed (str "\t\t") [] := Closed.lit _ (by decide +kernel)
  have h3 := piece_quoted h.type.1
  have l4 : Closed (str "\n\t}, {\n") [p "}", p ",", p "{"] := Closed.lit _ (by decide +kernel)
  have h4 := piece_entries (introspection := introspection) (t := t) h.name
  have l5 : Closed (str "\n\t})") [p "}", p ")"] := Closed.lit _ (by decide +kernel)
  have l6 : Closed (if introspection then str "\n\t, _schema(GetSchema())" else [])
      (if introspection then [p ",", .word (str "_schema"), p "(", .word (str "GetSchema"), p "(", p ")", p ")"] else []) := by
    cases introspection
    · exact Closed.nil
    · exact Closed.lit _ (by decide +kernel)
  have l7 : Closed (str "\n{\n}\n") [p "{", p "}"] := Closed.lit _ (by decide +kernel)
  refine Closed.of ((((((((((hc.then l1 (Begins.lit (by decide))).thenP hc).then l2 (Begins.lit (by decide))).then h1).then h2).then
    l3).thenP h3).then l4 (Begins.lit (by decide))).thenP h4).then (l5.then (l6.then l7)) ((Begins.lit (by decide)).append _)) ?_ ?_
  · have e1 : str "\t\t\"" = str "\t\t" ++ str "\"" := by decide
    have e2 : str "\"\n\t}, {\n" = str "\"" ++ str "\n\t}, {\n" := by decide
    simp only [constructorText, e2, List.append_assoc]
    simp only [e1, List.append_assoc]
  · simp only [constructorK, Constructor.tokens, List.map_append, List.map_cons, List.map_nil]
    rw [← List.map_append, commaTokens_append]
    simp [List.flatMap_map]
    cases introspection <;> rfl

end Verif.GenObject
