import Verif.GenText.Tree
import Verif.GenText.Spec
import Verif.Cpp.Lex
import Verif.Gen.NamesProps
import Mathlib.Data.List.Forall2

/-!
# Reading the text of `AddTypesToSchema`

The text of `Verif.GenText.Model` is the text of the syntax of `Verif.GenText.Tree`.
-/
namespace Verif.GenText
open Verif.Value Verif.Gen Verif.Modifiers Verif.Text Verif.Cpp
open Verif.Schema.Wrap (Kind)

/-! ## Pieces of text -/

/-- Text which needs the end of a word behind it. -/
def Piece (s : Str) (a : List Tok) : Prop := ∀ r b, StartsB r → Lexes r b → Lexes (s ++ r) (a ++ b)

/-- Text with anything behind it. -/
def Closed (s : Str) (a : List Tok) : Prop := ∀ r b, Lexes r b → Lexes (s ++ r) (a ++ b)

/-- Text which ends a word. -/
def Begins (s : Str) : Prop := ∀ r, StartsB (s ++ r)

theorem Begins.lit {s : Str} (h : startsB s = true) : Begins s := fun r => StartsB.lit h r

theorem Begins.append {s : Str} (h : Begins s) (t : Str) : Begins (s ++ t) := fun r => by
  rw [List.append_assoc]; exact h _

theorem Closed.lit {s : Str} (a : List Tok) (h : Cpp.scan 100 s = some a) : Closed s a := fun _ _ hr => Lexes.lit a h hr

theorem Closed.nil : Closed [] [] := fun _ _ h => h

theorem Closed.piece {s : Str} {a : List Tok} (h : Closed s a) : Piece s a := fun r b _ hr => h r b hr

theorem Closed.then {s t : Str} {a b : List Tok} (h : Closed s a) (k : Closed t b) : Closed (s ++ t) (a ++ b) :=
  fun r c hr => by rw [List.append_assoc, List.append_assoc]; exact h _ _ (k _ _ hr)

theorem Closed.thenP {s t : Str} {a b : List Tok} (h : Closed s a) (k : Piece t b) : Piece (s ++ t) (a ++ b) :=
  fun r c hs hr => by rw [List.append_assoc, List.append_assoc]; exact h _ _ (k _ _ hs hr)

theorem Piece.then {s t : Str} {a b : List Tok} (h : Piece s a) (k : Closed t b) (hb : Begins t) :
    Closed (s ++ t) (a ++ b) :=
  fun r c hr => by rw [List.append_assoc, List.append_assoc]; exact h _ _ (hb _) (k _ _ hr)

theorem Piece.thenP {s t : Str} {a b : List Tok} (h : Piece s a) (k : Piece t b) (hb : Begins t) :
    Piece (s ++ t) (a ++ b) :=
  fun r c hs hr => by rw [List.append_assoc, List.append_assoc]; exact h _ _ (hb _) (k _ _ hs hr)

theorem Closed.of {s t : Str} {a b : List Tok} (h : Closed s a) (hs : t = s) (ha : b = a) : Closed t b := by
  rw [hs, ha]; exact h

theorem Piece.of {s t : Str} {a b : List Tok} (h : Piece s a) (hs : t = s) (ha : b = a) : Piece t b := by
  rw [hs, ha]; exact h

theorem Piece.word {w : Str} (hw : IsName w) (hk : w ∉ keywords) : Piece w [.word w] := fun r b hs hr => by
  have := Lexes.word hw hs hr
  rw [wordTok, if_neg hk] at this
  exact this

/-- Text which a raw string with `md` and `gql` can contain. -/
theorem piece_gql {s : Str} (h : NoClose (str ")gql\"") s) : Piece (gql s) [.text s true] := fun r b hs hr => by
  have := Lexes.rawView (d := str "gql") (s := s) (by decide) (by decide) h hs hr
  have e : gql s ++ r = str "R\"" ++ (str "gql" ++ str "(" ++ s ++ (str ")" ++ str "gql" ++ str "\"") ++ (str "sv" ++ r)) := by
    have e1 : str "R\"gql(" = str "R\"" ++ str "gql" ++ str "(" := by decide
    have e2 : str ")gql\"sv" = str ")" ++ str "gql" ++ str "\"" ++ str "sv" := by decide
    simp only [gql, e1, e2, List.append_assoc]
  rw [e]
  exact this

theorem piece_md {s : Str} (h : NoClose (str ")md\"") s) : Piece (md s) [.text s true] := fun r b hs hr => by
  have := Lexes.rawView (d := str "md") (s := s) (by decide) (by decide) h hs hr
  have e : md s ++ r = str "R\"" ++ (str "md" ++ str "(" ++ s ++ (str ")" ++ str "md" ++ str "\"") ++ (str "sv" ++ r)) := by
    have e1 : str "R\"md(" = str "R\"" ++ str "md" ++ str "(" := by decide
    have e2 : str ")md\"sv" = str ")" ++ str "md" ++ str "\"" ++ str "sv" := by decide
    simp only [md, e1, e2, List.append_assoc]
  rw [e]
  exact this

theorem piece_mdPlain {s : Str} (h : NoClose (str ")md\"") s) : Piece (mdPlain s) [.text s false] := fun r b hs hr => by
  have := Lexes.rawPlain (d := str "md") (s := s) (by decide) (by decide) h hs hr
  have e : mdPlain s ++ r = str "R\"" ++ (str "md" ++ str "(" ++ s ++ (str ")" ++ str "md" ++ str "\"") ++ r) := by
    have e1 : str "R\"md(" = str "R\"" ++ str "md" ++ str "(" := by decide
    have e2 : str ")md\"" = str ")" ++ str "md" ++ str "\"" := by decide
    simp only [mdPlain, e1, e2, List.append_assoc]
  rw [e]
  exact this

theorem piece_quoted {s : Str} (h : IsName s) : Piece (str "\"" ++ s ++ str "\"") [.text s false] := fun r b hs hr => by
  have := Lexes.quotedPlain (s := s) (by obtain ⟨c, cs, rfl, h1, h2⟩ := h; simpa [nameCont, h1] using h2) hs hr
  simpa only [List.append_assoc, List.cons_append, List.nil_append] using this

theorem piece_quotedView {s : Str} (h : IsName s) : Piece (str "\"" ++ s ++ str "\"sv") [.text s true] :=
  fun r b hs hr => by
  have := Lexes.quotedView (s := s) (by obtain ⟨c, cs, rfl, h1, h2⟩ := h; simpa [nameCont, h1] using h2) hs hr
  have e : str "\"sv" = str "\"" ++ str "sv" := by decide
  simpa only [List.append_assoc, e, List.cons_append, List.nil_append] using this

/-! ## Lists -/

theorem commas_cons (x y : Str) (xs : List Str) : commas (x :: y :: xs) = x ++ (str ",\n" ++ commas (y :: xs)) := by
  simp [commas]

theorem lit_comma : Closed (str ",\n") [p ","] := Closed.lit _ (by decide +kernel)

theorem piece_commas {xs : List Str} {es : List Expr} (h : List.Forall₂ (fun x e => Piece x (Expr.tokens e)) xs es) :
    Piece (commas xs) (Expr.listTokens es) := by
  induction h with
  | nil => exact Closed.nil.piece
  | @cons x e xs es hx h ih =>
    cases h with
    | nil => simpa [commas, Expr.listTokens, Expr.moreTokens] using hx
    | @cons y f ys fs hy h =>
      rw [commas_cons]
      refine Piece.of (hx.thenP (lit_comma.thenP ih) ((Begins.lit (by decide)).append _)) rfl ?_
      simp [Expr.listTokens, Expr.moreTokens]

theorem piece_commas' {xs : List Str} {ts : List (List Tok)} (h : List.Forall₂ Piece xs ts) :
    Piece (commas xs) (commaTokens ts) := by
  induction h with
  | nil => exact Closed.nil.piece
  | @cons x e xs es hx h ih =>
    cases h with
    | nil => simpa [commas, commaTokens] using hx
    | @cons y f ys fs hy h =>
      rw [commas_cons]
      refine Piece.of (hx.thenP (lit_comma.thenP ih) ((Begins.lit (by decide)).append _)) rfl ?_
      simp [commaTokens]

theorem forall₂_map {α β γ : Type} {R : β → γ → Prop} {f : α → β} {g : α → γ} {xs : List α} (h : ∀ x ∈ xs, R (f x) (g x)) :
    List.Forall₂ R (xs.map f) (xs.map g) := by
  induction xs with
  | nil => exact .nil
  | cons x xs ih => exact .cons (h x (by simp)) (ih fun y hy => h y (by simp [hy]))

theorem closed_flatMap {α : Type} {f : α → Str} {g : α → List Tok} {xs : List α} (h : ∀ x ∈ xs, Closed (f x) (g x)) :
    Closed (xs.flatMap f) (xs.flatMap g) := by
  induction xs with
  | nil => exact Closed.nil
  | cons x xs ih =>
    simp only [List.flatMap_cons]
    exact (h x (by simp)).then (ih fun y hy => h y (by simp [hy]))

/-! ## Names -/

theorem cpp_name {n : Str} (h : IsName n) : IsName (cpp n) := (C43_names [] n).2.1 h

theorem IsName.prefix {a b : Str} (ha : IsName a) (hb : IsName b) : IsName (a ++ b) := by
  obtain ⟨c, cs, rfl, h1, h2⟩ := ha
  obtain ⟨d, ds, rfl, h3, h4⟩ := hb
  refine ⟨c, cs ++ d :: ds, by simp, h1, ?_⟩
  intro x hx
  simp only [List.mem_append, List.mem_cons] at hx
  rcases hx with hx | rfl | hx
  · exact h2 x hx
  · simp [nameCont, h3]
  · exact h4 x hx

theorem noClose_name {s cl : Str} {c : Byte} (hc : nameCont c = false) (h : IsName s) : NoClose (c :: cl) s := by
  rintro a b rfl
  obtain ⟨d, ds, e, h1, h2⟩ := h
  have : c ∈ d :: ds := by rw [← e]; simp
  rcases List.mem_cons.1 this with rfl | hm
  · rw [nameCont, h1] at hc; cases hc
  · rw [h2 c hm] at hc; cases hc

theorem gql_name {s : Str} (h : IsName s) : NoClose (str ")gql\"") s := noClose_name (c := chr ')') (by decide) h

theorem name_type : IsName (str "type") := ⟨chr 't', str "ype", by decide, by decide, by decide⟩

/-! ## Types -/

def nonNullText : Str := str "schema->WrapType(introspection::TypeKind::NON_NULL, "
def listText : Str := str "schema->WrapType(introspection::TypeKind::LIST, "
def lookupText (t : Str) : Str := str "schema->LookupType(\"" ++ t ++ str "\")"

def typeText : Bool → List Mod → Str → Str
  | nonNull, [], t => if nonNull then nonNullText ++ lookupText t ++ str ")" else lookupText t
  | nonNull, .list :: ms, t =>
    if nonNull then nonNullText ++ (listText ++ typeText true ms t ++ str ")") ++ str ")"
    else listText ++ typeText true ms t ++ str ")"
  | _, .nullable :: ms, t => typeText false ms t

theorem finish_eq (ms : List Mod) (t : Str) (w : Writer) :
    (let w := ms.foldl introspectionStep w
     let w := if w.nonNull then w.open nonNullText else w
     w.text ++ str "schema->LookupType(\"" ++ t ++ str "\")" ++ closing (str ")") w.count) =
    w.text ++ typeText w.nonNull ms t ++ closing (str ")") w.count := by
  induction ms generalizing w with
  | nil =>
    cases h : w.nonNull with
    | false => simp [typeText, lookupText, h]
    | true => simp [typeText, lookupText, h, Writer.open, closing]
  | cons m ms ih =>
    rw [List.foldl_cons, ih]
    cases m with
    | nullable => simp [introspectionStep, typeText]
    | list =>
      have e : str "schema->WrapType(introspection::TypeKind::NON_NULL, " = nonNullText := rfl
      have e' : str "schema->WrapType(introspection::TypeKind::LIST, " = listText := rfl
      cases h : w.nonNull with
      | false => simp [introspectionStep, typeText, h, Writer.open, closing, e']
      | true => simp [introspectionStep, typeText, h, Writer.open, closing, e, e']

theorem getIntrospectionType_eq (t : Str) (ms : List Mod) : getIntrospectionType t ms = typeText true ms t := by
  have := finish_eq ms t {}
  simp only [closing, List.append_nil, List.nil_append] at this
  exact this

theorem lit_nonNull : Closed nonNullText [.word (str "schema"), p "->", .word (str "WrapType"), p "(",
    .word (str "introspection"), p "::", .word (str "TypeKind"), p "::", .word (str "NON_NULL"), p ","] :=
  Closed.lit _ (by decide +kernel)

theorem lit_list : Closed listText [.word (str "schema"), p "->", .word (str "WrapType"), p "(",
    .word (str "introspection"), p "::", .word (str "TypeKind"), p "::", .word (str "LIST"), p ","] :=
  Closed.lit _ (by decide +kernel)

theorem lit_close : Closed (str ")") [p ")"] := Closed.lit _ (by decide +kernel)
theorem begins_close : Begins (str ")") := Begins.lit (by decide)

theorem closed_lookup {t : Str} (h : IsName t) : Closed (lookupText t) (lookupE t false).tokens := by
  have h1 : Closed (str "schema->LookupType(") [.word (str "schema"), p "->", .word (str "LookupType"), p "("] :=
    Closed.lit _ (by decide +kernel)
  refine Closed.of ((h1.thenP (piece_quoted h)).then lit_close begins_close) ?_ ?_
  · have e1 : str "schema->LookupType(\"" = str "schema->LookupType(" ++ str "\"" := by decide
    have e2 : str "\")" = str "\"" ++ str ")" := by decide
    simp only [lookupText, e1, e2, List.append_assoc]
  · simp [lookupE, Expr.tokens, Expr.listTokens, Expr.moreTokens, schemaVar]

theorem closed_wrapNN {s : Str} {e : Expr} (h : Closed s e.tokens) : Closed (nonNullText ++ s ++ str ")") (nonNullE e).tokens :=
  Closed.of ((lit_nonNull.then h).then lit_close) rfl
    (by simp [nonNullE, Expr.tokens, Expr.listTokens, Expr.moreTokens, schemaVar, Path.tokens, path])

theorem closed_wrapList {s : Str} {e : Expr} (h : Closed s e.tokens) : Closed (listText ++ s ++ str ")") (listE e).tokens :=
  Closed.of ((lit_list.then h).then lit_close) rfl
    (by simp [listE, Expr.tokens, Expr.listTokens, Expr.moreTokens, schemaVar, Path.tokens, path])

theorem closed_type {t : Str} (h : IsName t) (nn : Bool) (ms : List Mod) : Closed (typeText nn ms t) (typeE nn ms t).tokens := by
  induction ms generalizing nn with
  | nil =>
    cases nn with
    | false => exact closed_lookup h
    | true => exact closed_wrapNN (closed_lookup h)
  | cons m ms ih =>
    cases m with
    | nullable => exact ih false
    | list =>
      cases nn with
      | false => exact closed_wrapList (ih true)
      | true => exact closed_wrapNN (closed_wrapList (ih true))

theorem closed_typeText {t : Str} (h : IsName t) (ms : List Mod) :
    Closed (getIntrospectionType t ms) (typeE true ms t).tokens := by
  rw [getIntrospectionType_eq]; exact closed_type h true ms


/-! ## Expressions -/

theorem lit_sep : Closed (str ", ") [p ","] := Closed.lit _ (by decide +kernel)
theorem begins_sep : Begins (str ", ") := Begins.lit (by decide)

theorem Piece.sep {s : Str} {a : List Tok} (h : Piece s a) : Closed (s ++ str ", ") (a ++ [p ","]) := h.then lit_sep begins_sep

theorem piece_deprecation {r : Option Str} (h : ∀ x, r = some x → MdOk x) : Piece (deprecationText r) (deprecationE r).tokens := by
  cases r with
  | none =>
    have h1 : Closed (str "std::") [.word (str "std"), p "::"] := Closed.lit _ (by decide +kernel)
    have h2 : Piece (str "nullopt") [.word (str "nullopt")] :=
      Piece.word ⟨chr 'n', str "ullopt", by decide, by decide, by decide⟩ (by decide +kernel)
    refine Piece.of (h1.thenP h2) (by decide) ?_
    simp [deprecationE, Expr.tokens, Path.tokens, path]
  | some x =>
    have h1 : Closed (str "std::make_optional(") [.word (str "std"), p "::", .word (str "make_optional"), p "("] :=
      Closed.lit _ (by decide +kernel)
    refine Closed.piece (Closed.of ((h1.thenP (piece_md (h x rfl))).then lit_close begins_close) rfl ?_)
    simp [deprecationE, Expr.tokens, Expr.listTokens, Expr.moreTokens, Path.tokens, path]

/-- Only white space. -/
structure Blank (s : Str) : Prop where
  closed : Closed s []

theorem blank_2 : Blank (str "\t\t") := ⟨Closed.lit _ (by decide +kernel)⟩
theorem blank_3 : Blank (str "\t\t\t") := ⟨Closed.lit _ (by decide +kernel)⟩

variable {o : Options}

theorem closed_input (ho : o.noIntrospection = false) {indent : Str} (hi : Blank indent) {f : InputField} (h : InputOk f) :
    Closed (inputValueText o indent f) (inputE f).tokens := by
  have h1 : Closed (str "schema::InputValue::Make(") [.word (str "schema"), p "::", .word (str "InputValue"), p "::",
    .word (str "Make"), p "("] := Closed.lit _ (by decide +kernel)
  have hd : described o f.description = f.description := by simp [described, ho]
  refine Closed.of (((((hi.closed.then h1).thenP (piece_gql (gql_name h.name))).sep.thenP (piece_md h.description)).sep.then
    (closed_typeText h.type f.modifiers)).piece.sep.thenP (piece_gql h.default) |>.then lit_close begins_close) ?_ ?_
  · simp only [inputValueText, hd, List.append_assoc]
  · simp [inputE, Expr.tokens, Expr.listTokens, Expr.moreTokens, Path.tokens, path]

theorem closed_inputs (ho : o.noIntrospection = false) {indent : Str} (hi : Blank indent) {fs : List InputField}
    (h : ∀ f ∈ fs, InputOk f) : Piece (commas (fs.map (inputValueText o indent))) (Expr.listTokens (fs.map inputE)) :=
  piece_commas (forall₂_map fun f hf => (closed_input ho hi (h f hf)).piece)

theorem closed_field (ho : o.noIntrospection = false) {f : OutputField} (h : FieldOk f) :
    Closed (fieldText o f) (fieldE f).tokens := by
  have h1 : Closed (str "\t\tschema::Field::Make(") [.word (str "schema"), p "::", .word (str "Field"), p "::",
    .word (str "Make"), p "("] := Closed.lit _ (by decide +kernel)
  have hd : described o f.description = f.description := by simp [described, ho]
  have h2 := (((h1.thenP (piece_gql (gql_name h.name))).sep.thenP (piece_md h.description)).sep.thenP
    (piece_deprecation h.deprecation)).sep.then (closed_typeText h.type f.modifiers)
  by_cases ha : f.arguments.isEmpty = true
  · refine Closed.of (h2.then lit_close) ?_ ?_
    · simp [fieldText, hd, ha]
    · simp [fieldE, ha, Expr.tokens, Expr.listTokens, Expr.moreTokens, Path.tokens, path]
  · have h3 : Closed (str ", {\n") [p ",", p "{"] := Closed.lit _ (by decide +kernel)
    have h4 : Closed (str "\n\t\t}") [p "}"] := Closed.lit _ (by decide +kernel)
    refine Closed.of (((h2.then h3).thenP (closed_inputs ho blank_3 h.arguments)).then (h4.then lit_close)
      ((Begins.lit (by decide)).append _)) ?_ ?_
    · simp [fieldText, hd, ha]
    · simp [fieldE, ha, Expr.tokens, Expr.listTokens, Expr.moreTokens, Path.tokens, path]

theorem piece_path {q : Path} (h : ∀ s ∈ q.head :: q.tail, IsName s ∧ s ∉ keywords) :
    Piece (q.head ++ q.tail.flatMap fun s => str "::" ++ s) q.tokens := by
  have hc : Closed (str "::") [p "::"] := Closed.lit _ (by decide +kernel)
  have key : ∀ tail : List Str, (∀ s ∈ tail, IsName s ∧ s ∉ keywords) → ∀ s a, Piece s a →
      Piece (s ++ tail.flatMap fun s => str "::" ++ s) (a ++ tail.flatMap fun s => [p "::", .word s]) := by
    intro tail
    induction tail with
    | nil => intro _ s a hs; simpa using hs
    | cons t ts ih =>
      intro ht s a hs
      have h1 := ht t (by simp)
      have h2 := hs.thenP (hc.thenP (Piece.word h1.1 h1.2)) ((Begins.lit (by decide)).append _)
      have := ih (fun s hs => ht s (by simp [hs])) _ _ h2
      simpa using this
  have h1 := h q.head (by simp)
  have := key q.tail (fun s hs => h s (by simp [hs])) _ _ (Piece.word h1.1 h1.2)
  simpa [Path.tokens] using this

theorem snames_name {n : Str} (h : IsName n) : IsName (str "s_names" ++ n) :=
  IsName.prefix ⟨chr 's', str "_names", by decide, by decide, by decide⟩ h

theorem not_keyword {w : Str} (c d : Byte) (n : Str) (h : w = c :: d :: n) (hk : ∀ k ∈ keywords, k.take 2 ≠ [c, d]) : w ∉ keywords := by
  intro hm
  exact hk w hm (by rw [h]; simp)

theorem snames_word (n : Str) : str "s_names" ++ n ∉ keywords :=
  not_keyword (chr 's') (chr '_') (str "names" ++ n) (by rfl) (by decide +kernel)

theorem closed_enumValue (ho : o.noIntrospection = false) {ns : Path} (hn : IsNamespace o.schemaNamespace ns) {t : EnumType}
    (ht : IsName t.type) (hk : cpp t.type ∉ keywords) {v : EnumValueType} (h : EnumValueOk v) :
    Closed (enumValueText o t v) (enumValueE ns t v).tokens := by
  have h1 : Closed (str "\t\t{ service::") [p "{", .word (str "service"), p "::"] := Closed.lit _ (by decide +kernel)
  have h2 : Closed (str "[static_cast<size_t>(") [p "[", kw "static_cast", p "<", .word (str "size_t"), p ">", p "("] :=
    Closed.lit _ (by decide +kernel)
  have hc : Closed (str "::") [p "::"] := Closed.lit _ (by decide +kernel)
  have bc : Begins (str "::") := Begins.lit (by decide)
  have h3 : Closed (str ")], ") [p ")", p "]", p ","] := Closed.lit _ (by decide +kernel)
  have h4 : Closed (str " }") [p "}"] := Closed.lit _ (by decide +kernel)
  have hd : described o v.description = v.description := by simp [described, ho]
  have hv : cpp v.value ∉ keywords := by rw [h.same]; exact h.word
  have hp := piece_path hn.2
  rw [← hn.1] at hp
  have c1 := ((h1.thenP (Piece.word (snames_name (cpp_name ht)) (snames_word _))).then h2 (Begins.lit (by decide))).thenP hp
  have c2 := (c1.then hc bc).thenP (Piece.word (cpp_name ht) hk)
  have c3 := (c2.then hc bc).thenP (Piece.word (cpp_name h.name) hv)
  have c4 := ((c3.then h3 (Begins.lit (by decide))).thenP (piece_md h.description)).sep.thenP (piece_deprecation h.deprecation)
  refine Closed.of (c4.then h4 (Begins.lit (by decide))) ?_ ?_
  · have e : str "\t\t{ service::s_names" = str "\t\t{ service::" ++ str "s_names" := by decide
    simp only [enumValueText, hd, e, List.append_assoc]
  · simp [enumValueE, enumeratorP, Expr.tokens, Expr.listTokens, Expr.moreTokens, Path.tokens, Cpp.word]

/-! ## Statements -/

theorem piece_typeVar {n : Str} (hn : IsName n) (hk : str "type" ++ cpp n ∉ keywords) :
    Piece (str "type" ++ cpp n) [.word (typeVar n)] := Piece.word (IsName.prefix name_type (cpp_name hn)) hk

theorem lit_tab : Closed (str "\t") [] := Closed.lit _ (by decide +kernel)

theorem split_type : str "\ttype" = str "\t" ++ str "type" := by decide

theorem closed_onType {n : Str} (hn : IsName n) (hk : str "type" ++ cpp n ∉ keywords) {m : String} {lit : Str}
    (hl : Closed lit [p "->", .word (str m), p "(", p "{"]) (hb : startsB lit = true) {s : Str} {es : List Expr}
    (h : Piece s (Expr.listTokens es)) (hne : es.isEmpty = false) :
    Closed (str "\ttype" ++ cpp n ++ lit ++ s ++ str "\n\t});\n") ((onType n m es).flatMap Cpp.Stmt.tokens) := by
  have h2 : Closed (str "\n\t});\n") [p "}", p ")", p ";"] := Closed.lit _ (by decide +kernel)
  refine Closed.of ((((lit_tab.thenP (piece_typeVar hn hk)).then hl (Begins.lit hb)).thenP h).then h2
    (Begins.lit (by decide))) ?_ ?_
  · simp only [split_type, List.append_assoc]
  · simp [onType, hne, Cpp.Stmt.tokens, Expr.tokens, Expr.listTokens, Expr.moreTokens]

theorem closed_scalar (ho : o.noIntrospection = false) {t : ScalarType} (hn : IsName t.type) (hd : MdOk t.description) :
    Closed (scalarText o t) (scalarS t).tokens := by
  have h1 : Closed (str "\tschema->AddType(") [.word (str "schema"), p "->", .word (str "AddType"), p "("] :=
    Closed.lit _ (by decide +kernel)
  have h2 : Closed (str ", schema::ScalarType::Make(") [p ",", .word (str "schema"), p "::", .word (str "ScalarType"), p "::",
    .word (str "Make"), p "("] := Closed.lit _ (by decide +kernel)
  have h3 : Closed (str "));\n") [p ")", p ")", p ";"] := Closed.lit _ (by decide +kernel)
  have e : described o t.description = t.description := by simp [described, ho]
  refine Closed.of (((((h1.thenP (piece_gql (gql_name hn))).then h2 (Begins.lit (by decide))).thenP
    (piece_gql (gql_name hn))).sep.thenP (piece_mdPlain hd)).then h3 (Begins.lit (by decide))) ?_ ?_
  · simp only [scalarText, e, List.append_assoc]
  · simp [scalarS, Cpp.Stmt.tokens, Expr.tokens, Expr.listTokens, Expr.moreTokens, Path.tokens, path, schemaVar]

theorem class_name (k : Kind) : IsName (className k) ∧ className k ∉ keywords := by
  have key : ∀ n : Str, (match n with | [] => false | c :: cs => nameStart c && cs.all nameCont) = true → IsName n := by
    intro n hn
    cases n with
    | nil => cases hn
    | cons c cs =>
      simp only [Bool.and_eq_true, List.all_eq_true] at hn
      exact ⟨c, cs, rfl, hn⟩
  cases k <;> exact ⟨key _ (by decide), by decide +kernel⟩

theorem closed_declare (ho : o.noIntrospection = false) (k : Kind) {n d : Str} (hn : IsName n)
    (hk : str "type" ++ cpp n ∉ keywords) (hd : MdOk d) :
    Closed (declareText o k (n, d)) ((declareS k (n, d)).flatMap Cpp.Stmt.tokens) := by
  have h1 : Closed (str "\tauto ") [kw "auto"] := Closed.lit _ (by decide +kernel)
  have h2 : Closed (str " = schema::") [p "=", .word (str "schema"), p "::"] := Closed.lit _ (by decide +kernel)
  have h3 : Closed (str "::Make(") [p "::", .word (str "Make"), p "("] := Closed.lit _ (by decide +kernel)
  have h4 : Closed (str ");\n\tschema->AddType(") [p ")", p ";", .word (str "schema"), p "->", .word (str "AddType"), p "("] :=
    Closed.lit _ (by decide +kernel)
  have h5 : Closed (str ");\n") [p ")", p ";"] := Closed.lit _ (by decide +kernel)
  have e : described o d = d := by simp [described, ho]
  have hdesc : Piece (if k = .object then mdPlain (described o d) else md (described o d)) [.text d (decide (k ≠ .object))] := by
    rw [e]
    by_cases hko : k = .object
    · simpa [hko] using piece_mdPlain hd
    · simpa [hko] using piece_md hd
  have c1 := (h1.thenP (piece_typeVar hn hk)).then h2 (Begins.lit (by decide))
  have c2 := ((c1.thenP (Piece.word (class_name k).1 (class_name k).2)).then h3 (Begins.lit (by decide))).thenP (piece_gql (gql_name hn))
  have c3 := (c2.sep.thenP hdesc).then h4 (Begins.lit (by decide))
  have c4 := ((c3.thenP (piece_gql (gql_name hn))).sep.thenP (piece_typeVar hn hk)).then h5 (Begins.lit (by decide))
  refine Closed.of c4 ?_ ?_
  · have e1 : str "\tauto type" = str "\tauto " ++ str "type" := by decide
    have e2 : str ", type" = str ", " ++ str "type" := by decide
    simp only [declareText, e1, e2, List.append_assoc]
  · simp [declareS, Cpp.Stmt.tokens, Expr.tokens, Expr.listTokens, Expr.moreTokens, Path.tokens, schemaVar, Cpp.word]

theorem map_isEmpty {α β : Type} (f : α → β) (xs : List α) : (xs.map f).isEmpty = xs.isEmpty := by cases xs <;> rfl

theorem closed_enum (ho : o.noIntrospection = false) {ns : Path} (hns : IsNamespace o.schemaNamespace ns) {t : EnumType}
    (hn : IsName t.type) (hw : cpp t.type ∉ keywords) (hk : str "type" ++ cpp t.type ∉ keywords)
    (h : ∀ v ∈ t.values, EnumValueOk v) : Closed (enumDetailsText o t) ((enumS ns t).flatMap Cpp.Stmt.tokens) := by
  unfold enumDetailsText enumS
  cases he : t.values.isEmpty with
  | true => simp [onType, map_isEmpty, he]; exact Closed.nil
  | false =>
    exact closed_onType hn hk (m := "AddEnumValues") (Closed.lit _ (by decide +kernel)) (by decide)
      (piece_commas (forall₂_map fun v hv => (closed_enumValue ho hns hn hw (h v hv)).piece)) (by rw [map_isEmpty, he])

theorem closed_inputType (ho : o.noIntrospection = false) {t : InputType} (hn : IsName t.type)
    (hk : str "type" ++ cpp t.type ∉ keywords) (h : ∀ f ∈ t.fields, InputOk f) :
    Closed (inputDetailsText o t) ((inputS t).flatMap Cpp.Stmt.tokens) := by
  unfold inputDetailsText inputS
  cases he : t.fields.isEmpty with
  | true => simp [onType, map_isEmpty, he]; exact Closed.nil
  | false =>
    exact closed_onType hn hk (m := "AddInputValues") (Closed.lit _ (by decide +kernel)) (by decide)
      (closed_inputs ho blank_2 h) (by rw [map_isEmpty, he])

theorem closed_lookupGql {pre : Str} (hp : Closed pre [.word (str "schema"), p "->", .word (str "LookupType"), p "("]) {n : Str}
    (h : IsName n) : Closed (pre ++ gql n ++ str ")") (lookupE n true).tokens :=
  Closed.of ((hp.thenP (piece_gql (gql_name h))).then lit_close begins_close) rfl
    (by simp [lookupE, Expr.tokens, Expr.listTokens, Expr.moreTokens, schemaVar])

theorem closed_union {t : UnionType} (hn : IsName t.type) (hk : str "type" ++ cpp t.type ∉ keywords)
    (h : ∀ n ∈ t.options, IsName n) : Closed (unionDetailsText t) ((unionS t).flatMap Cpp.Stmt.tokens) := by
  unfold unionDetailsText unionS
  cases he : t.options.isEmpty with
  | true => simp [onType, map_isEmpty, he]; exact Closed.nil
  | false =>
    exact closed_onType hn hk (m := "AddPossibleTypes") (Closed.lit _ (by decide +kernel)) (by decide)
      (piece_commas (forall₂_map fun n hn => (closed_lookupGql (Closed.lit _ (by decide +kernel)) (h n hn)).piece))
      (by rw [map_isEmpty, he])

theorem closed_fields (ho : o.noIntrospection = false) {n : Str} (hn : IsName n) (hk : str "type" ++ cpp n ∉ keywords)
    {fs : List OutputField} (h : ∀ f ∈ fs, FieldOk f) : Closed (fieldsText o n fs) ((fieldsS n fs).flatMap Cpp.Stmt.tokens) := by
  unfold fieldsText fieldsS
  cases he : fs.isEmpty with
  | true => simp [onType, map_isEmpty, he]; exact Closed.nil
  | false =>
    exact closed_onType hn hk (m := "AddFields") (Closed.lit _ (by decide +kernel)) (by decide)
      (piece_commas (forall₂_map fun f hf => (closed_field ho (h f hf)).piece)) (by rw [map_isEmpty, he])

theorem piece_interface {n : Str} (hn : IsName n) (hk : str "type" ++ cpp n ∉ keywords) :
    Piece (interfaceText o n) (interfaceE o.separateFiles n).tokens := by
  unfold interfaceText interfaceE
  cases o.separateFiles with
  | false =>
    refine Piece.of (blank_2.closed.thenP (piece_typeVar hn hk)) ?_ ?_
    · have e : str "\t\ttype" = str "\t\t" ++ str "type" := by decide
      simp [e]
    · simp [Expr.tokens, Path.tokens, Cpp.word]
  | true =>
    have h1 : Closed (str "\t\tstd::static_pointer_cast<const schema::InterfaceType>(")
      [.word (str "std"), p "::", .word (str "static_pointer_cast"), p "<", kw "const", .word (str "schema"), p "::",
       .word (str "InterfaceType"), p ">", p "("] := Closed.lit _ (by decide +kernel)
    have h2 := (h1.then (closed_lookupGql (pre := str "schema->LookupType(") (Closed.lit _ (by decide +kernel)) hn)).then lit_close
    refine Closed.piece (Closed.of h2 ?_ ?_)
    · have e1 : str "\t\tstd::static_pointer_cast<const schema::InterfaceType>(schema->LookupType(" =
        str "\t\tstd::static_pointer_cast<const schema::InterfaceType>(" ++ str "schema->LookupType(" := by decide +kernel
      have e2 : str "))" = str ")" ++ str ")" := by decide
      simp only [if_true, e1, e2, List.append_assoc]
    · simp [Expr.tokens, Path.tokens, path]

theorem closed_interfaces {t : ObjectType} (hn : IsName t.type) (hk : str "type" ++ cpp t.type ∉ keywords)
    (h : ∀ n ∈ t.interfaces, IsName n ∧ str "type" ++ cpp n ∉ keywords) :
    Closed (interfacesText o t) ((interfacesS o.separateFiles t).flatMap Cpp.Stmt.tokens) := by
  unfold interfacesText interfacesS
  cases he : t.interfaces.isEmpty with
  | true => simp [onType, map_isEmpty, he]; exact Closed.nil
  | false =>
    exact closed_onType hn hk (m := "AddInterfaces") (Closed.lit _ (by decide +kernel)) (by decide)
      (piece_commas (forall₂_map fun n hn => piece_interface (h n hn).1 (h n hn).2)) (by rw [map_isEmpty, he])

theorem closed_object (ho : o.noIntrospection = false) {t : ObjectType} (hn : IsName t.type)
    (hk : str "type" ++ cpp t.type ∉ keywords) (hf : ∀ f ∈ t.fields, FieldOk f)
    (h : ∀ n ∈ t.interfaces, IsName n ∧ str "type" ++ cpp n ∉ keywords) :
    Closed (objectIntrospection o t) ((objectS o.separateFiles t).flatMap Cpp.Stmt.tokens) :=
  Closed.of ((closed_interfaces hn hk h).then (closed_fields ho hn hk hf)) rfl (by simp [objectS])

theorem name_ends {a b : Str} (ha : IsName a) (hb : ∀ c ∈ b, nameCont c = true) : IsName (a ++ b) := by
  obtain ⟨c, cs, rfl, h1, h2⟩ := ha
  refine ⟨c, cs ++ b, by simp, h1, ?_⟩
  intro x hx
  rcases List.mem_append.1 hx with hx | hx
  · exact h2 x hx
  · exact hb x hx

theorem name_add : IsName (str "Add") := ⟨chr 'A', str "dd", by decide, by decide, by decide⟩

theorem details_name {t : ObjectType} (hn : IsName t.type) : IsName (detailsName t) ∧ detailsName t ∉ keywords :=
  ⟨name_ends (IsName.prefix name_add (cpp_name hn)) (by decide),
   not_keyword (chr 'A') (chr 'd') (chr 'd' :: (cpp t.type ++ str "Details")) (by rfl) (by decide +kernel)⟩

theorem closed_objectCall {t : ObjectType} (hn : IsName t.type) (hk : str "type" ++ cpp t.type ∉ keywords) :
    Closed (str "\tAdd" ++ cpp t.type ++ str "Details(type" ++ cpp t.type ++ str ", schema);\n") (objectCallS t).tokens := by
  have h1 : Closed (str "(") [p "("] := Closed.lit _ (by decide +kernel)
  have h2 : Closed (str ", schema);\n") [p ",", .word (str "schema"), p ")", p ";"] := Closed.lit _ (by decide +kernel)
  refine Closed.of ((((lit_tab.thenP (Piece.word (details_name hn).1 (details_name hn).2)).then h1 (Begins.lit (by decide))).thenP
    (piece_typeVar hn hk)).then h2 (Begins.lit (by decide))) ?_ ?_
  · have e1 : str "\tAdd" = str "\t" ++ str "Add" := by decide
    have e2 : str "Details(type" = str "Details" ++ str "(" ++ str "type" := by decide
    simp only [detailsName, e1, e2, List.append_assoc]
  · simp [objectCallS, Cpp.Stmt.tokens, Expr.tokens, Expr.listTokens, Expr.moreTokens, Path.tokens, Cpp.word, schemaVar]

theorem location_names : ∀ n ∈ locationNames.map (·.1), IsName n ∧ n ∉ keywords := by
  have key : ∀ n : Str, (match n with | [] => false | c :: cs => nameStart c && cs.all nameCont) = true → IsName n := by
    intro n hn
    cases n with
    | nil => cases hn
    | cons c cs =>
      simp only [Bool.and_eq_true, List.all_eq_true] at hn
      exact ⟨c, cs, rfl, hn⟩
  intro n hn
  have h1 : ∀ n ∈ locationNames.map (·.1), (match n with | [] => false | c :: cs => nameStart c && cs.all nameCont) = true := by
    decide +kernel
  have h2 : ∀ n ∈ locationNames.map (·.1), n ∉ keywords := by decide +kernel
  exact ⟨key n (h1 n hn), h2 n hn⟩

theorem piece_location {n : Str} (h : n ∈ locationNames.map (·.1)) :
    Piece (str "\t\tintrospection::DirectiveLocation::" ++ n) (locationE n).tokens := by
  have h1 : Closed (str "\t\tintrospection::DirectiveLocation::") [.word (str "introspection"), p "::",
    .word (str "DirectiveLocation"), p "::"] := Closed.lit _ (by decide +kernel)
  exact Piece.of (h1.thenP (Piece.word (location_names n h).1 (location_names n h).2)) rfl
    (by simp [locationE, Expr.tokens, Path.tokens])

theorem closed_directive (ho : o.noIntrospection = false) {d : DirectiveType} (hn : IsName d.name) (hd : MdOk d.description)
    (ha : ∀ f ∈ d.arguments, InputOk f) (hl : ∀ n ∈ d.locations, n ∈ locationNames.map (·.1)) :
    Closed (directiveText o d) (directiveS d).tokens := by
  have h1 : Closed (str "\tschema->AddDirective(schema::Directive::Make(") [.word (str "schema"), p "->",
    .word (str "AddDirective"), p "(", .word (str "schema"), p "::", .word (str "Directive"), p "::", .word (str "Make"), p "("] :=
    Closed.lit _ (by decide +kernel)
  have h2 : Closed (str ", {") [p ",", p "{"] := Closed.lit _ (by decide +kernel)
  have h3 : Closed (str "}") [p "}"] := Closed.lit _ (by decide +kernel)
  have h4 : Closed (str "));\n") [p ")", p ")", p ";"] := Closed.lit _ (by decide +kernel)
  have h5 : Closed (str "\n") [] := Closed.lit _ (by decide +kernel)
  have h6 : Closed (str "\n\t") [] := Closed.lit _ (by decide +kernel)
  have h7 : Closed (str ", {\n") [p ",", p "{"] := Closed.lit _ (by decide +kernel)
  have h8 : Closed (str "\n\t}") [p "}"] := Closed.lit _ (by decide +kernel)
  have e : described o d.description = d.description := by simp [described, ho]
  have hloc : Closed (if d.locations.isEmpty then []
      else str "\n" ++ commas (d.locations.map fun n => str "\t\tintrospection::DirectiveLocation::" ++ n) ++ str "\n\t")
      (Expr.listTokens (d.locations.map locationE)) := by
    cases he : d.locations.isEmpty with
    | true =>
      have : d.locations = [] := by simpa using he
      simp [this, Expr.listTokens]; exact Closed.nil
    | false =>
      refine Closed.of ((h5.thenP (piece_commas (forall₂_map fun n hn => piece_location (hl n hn)))).then h6 (Begins.lit (by decide))) rfl ?_
      simp
  have hargs : Closed (if d.arguments.isEmpty then []
      else str ", {\n" ++ commas (d.arguments.map (inputValueText o (str "\t\t"))) ++ str "\n\t}")
      (if d.arguments.isEmpty then [] else [p ","] ++ (Expr.braces (d.arguments.map inputE)).tokens) := by
    cases he : d.arguments.isEmpty with
    | true => exact Closed.nil
    | false =>
      refine Closed.of ((h7.thenP (closed_inputs ho blank_2 ha)).then h8 (Begins.lit (by decide))) rfl ?_
      simp [Expr.tokens]
  refine Closed.of (((((((h1.thenP (piece_gql (gql_name hn))).sep.thenP (piece_md hd)).then h2 (Begins.lit (by decide))).then
    hloc).then h3).then hargs).then h4) ?_ ?_
  · simp only [directiveText, e, List.append_assoc]
  · cases he : d.arguments.isEmpty <;>
    simp [directiveS, directiveE, he, Cpp.Stmt.tokens, Expr.tokens, Expr.listTokens, Expr.moreTokens, Path.tokens, path, schemaVar]

theorem closed_operation {x : OperationType}
    (h : x.operation = str "query" ∨ x.operation = str "mutation" ∨ x.operation = str "subscription")
    (hn : IsName x.type) (hk : str "type" ++ cpp x.type ∉ keywords) : Closed (operationText x) (operationS x).tokens := by
  have h1 : Closed (str "\tschema->") [.word (str "schema"), p "->"] := Closed.lit _ (by decide +kernel)
  have h2 : Closed (str "(") [p "("] := Closed.lit _ (by decide +kernel)
  have h3 : Closed (str ");\n") [p ")", p ";"] := Closed.lit _ (by decide +kernel)
  have hm : Piece (str "Add" ++ capitalised x.operation ++ str "Type") [.word (str "Add" ++ capitalised x.operation ++ str "Type")] := by
    rcases h with h | h | h <;> rw [h] <;>
    exact Piece.word (name_ends (name_ends name_add (by decide)) (by decide)) (by decide +kernel)
  refine Closed.of ((((h1.thenP hm).then h2 (Begins.lit (by decide))).thenP (piece_typeVar hn hk)).then h3 (Begins.lit (by decide))) ?_ ?_
  · have e1 : str "\tschema->Add" = str "\tschema->" ++ str "Add" := by decide
    have e2 : str "Type(type" = str "Type" ++ str "(" ++ str "type" := by decide
    simp only [operationText, e1, e2, List.append_assoc]
  · simp [operationS, Cpp.Stmt.tokens, Expr.tokens, Expr.listTokens, Expr.moreTokens, Path.tokens, Cpp.word, schemaVar]

end Verif.GenText
