import Verif.GenTypes.Spec
import Verif.GenCode.ReadAll
import Verif.GenText.ReadAll
import Verif.Cpp.TypeUnique

/-!
# Reading the text of types and conversions
-/
namespace Verif.GenTypes
open Verif.Value Verif.Resp Verif.Text Verif.GenCode
open Verif.Gen (InputField InputType EnumType getInputCppType inputStep closing Writer)
open Verif.Gen.Service (Types)
open Verif.GenText
open Verif.Cpp (Path path word Tok p kw Lexes StartsB keywords chr)
open Verif.Cpp.Code (CType Member TypeDecl EnumArgument EnumResult ServiceDecl throwTokens memberTokens)
open Verif.Modifiers (Mod)

variable {print : Double → Str} {read : Str → Double} {T : Types} {ns : Str} {q : Path}

/-! ## The syntax which is meant -/

/-- The name of a type in the header. -/
def leafPath (f : InputField) : Path :=
  match f.fieldType with
  | .builtin => builtinPath f.type
  | .enum => word (cpp f.type)
  | .input => word (cpp f.type)
  | .scalar => valueT

def memberD (f : InputField) : Member := ⟨argumentType (leafPath f) f.modifiers, cpp f.name⟩

def structD (t : InputType) : TypeDecl := .struct (cpp t.type) (t.fields.map memberD)

def enumD (t : EnumType) : TypeDecl := .enumClass (cpp t.type) (t.values.map (·.value))

def headerD (T : Types) : List TypeDecl := T.enums.map enumD ++ T.inputs.map structD

def namesVar (t : EnumType) : Str := str "s_names" ++ cpp t.type

def message (t : EnumType) : Str := str "not a valid " ++ t.type ++ str " value"

def argumentF (ns : Path) (t : EnumType) : EnumArgument where
  result := typePath ns t.type
  t := typePath ns t.type
  notEnum := message t
  first := namesVar t
  last := namesVar t
  «end» := namesVar t
  notFound := message t
  cast := typePath ns t.type
  begin := namesVar t

def resultF (ns : Path) (t : EnumType) : EnumResult := ⟨typePath ns t.type, typePath ns t.type, typePath ns t.type, namesVar t⟩

def enumS (ns : Path) (t : EnumType) : List ServiceDecl :=
  [.array t.values.length (namesVar t) (t.values.map (·.value)), .argument (argumentF ns t), .result (resultF ns t)]

def serviceS (print : Double → Str) (ns : Path) (T : Types) : List ServiceDecl :=
  T.enums.flatMap (enumS ns) ++ T.inputs.map fun t => .function (inputF (numberE print) ns t)

/-! ## The header -/

/-- `getInputCppType`, from the outside to the inside. -/
def nested (leaf : Str) : List Mod → Str
  | [] => leaf
  | .nullable :: ms => str "std::optional<" ++ nested leaf ms ++ str ">"
  | .list :: ms => str "std::vector<" ++ nested leaf ms ++ str ">"

theorem nested_eq (leaf : Str) (ms : List Mod) (w : Writer) :
    (ms.foldl inputStep w).text ++ leaf ++ closing (str ">") (ms.foldl inputStep w).count =
      w.text ++ nested leaf ms ++ closing (str ">") w.count := by
  induction ms generalizing w with
  | nil => rfl
  | cons m ms ih =>
    rw [List.foldl_cons, ih]
    cases m <;> simp [inputStep, Gen.Writer.open, closing, nested]

theorem getInputCppType_eq (leaf : Str) (ms : List Mod) : getInputCppType leaf ms = nested leaf ms := by
  have := nested_eq leaf ms {}
  simpa [getInputCppType, closing] using this

/-- Text which is read as these tokens if a space, `>` or `&` is behind it. -/
def TypePiece (s : Str) (a : List Tok) : Prop :=
  ∀ c r b, c = chr ' ' ∨ c = chr '>' ∨ c = chr '&' → Lexes (c :: r) b → Lexes (s ++ c :: r) (a ++ b)

theorem TypePiece.of {s : Str} {a : List Tok} (h : Piece s a) : TypePiece s a := by
  intro c r b hc hr
  exact h _ _ ⟨c, r, rfl, by rcases hc with rfl | rfl | rfl <;> decide⟩ hr

theorem TypePiece.close {s : Str} {a : List Tok} (h : TypePiece s a) : TypePiece (s ++ str ">") (a ++ [p ">"]) := by
  intro c r b hc hr
  have h1 : Lexes (chr '>' :: c :: r) (p ">" :: b) := .token (rest := c :: r) (by rcases hc with rfl | rfl | rfl <;> rfl) hr
  have h2 := h (chr '>') _ _ (.inr (.inl rfl)) h1
  have e : str ">" = [chr '>'] := by decide
  simpa [e] using h2

theorem Closed.thenT {s t : Str} {a b : List Tok} (h : Closed s a) (k : TypePiece t b) : TypePiece (s ++ t) (a ++ b) := by
  intro c r x hc hr
  rw [List.append_assoc, List.append_assoc]
  exact h _ _ (k c r x hc hr)

theorem Piece.angle {s t : Str} {a b : List Tok} (h : Piece s a) (k : TypePiece t b) (ht : ∃ c r, t = c :: r ∧ nameStart c = true) :
    TypePiece (s ++ str "<" ++ t) (a ++ [p "<"] ++ b) := by
  intro c r x hc hr
  have h1 := k c r x hc hr
  obtain ⟨d, u, rfl, hd⟩ := ht
  rw [List.append_assoc, List.append_assoc, List.append_assoc, List.append_assoc]
  refine h _ _ ⟨chr '<', _, rfl, by decide⟩ ?_
  have e0 : ∀ x, str "<" ++ x = chr '<' :: x := fun _ => rfl
  rw [e0, List.singleton_append]
  refine .token (rest := (d :: u) ++ c :: r) ?_ h1
  have h1 : nameStart (chr '<') = false := by decide
  have h2 : isDigit (chr '<') = false := by decide
  have h3 : ¬ chr '<' = chr '"' := by decide
  have h4 : ¬ chr '<' ∈ str "(){}[],;" := by decide
  have h5 : ¬ (chr '<' = chr ':' ∧ d = chr ':') := by rintro ⟨h, -⟩; exact absurd h (by decide)
  have h6 : ¬ (chr '<' = chr '-' ∧ d = chr '>') := by rintro ⟨h, -⟩; exact absurd h (by decide)
  have h7 : ¬ (chr '<' = chr '&' ∧ d = chr '&') := by rintro ⟨h, -⟩; exact absurd h (by decide)
  simp only [List.cons_append, Cpp.token, h1, h2, h3, h4, if_false, Bool.false_eq_true, Cpp.operatorText, h5, h6, h7,
    true_and, hd, true_or, if_true]
  rfl

theorem start_nested {leaf : Str} (h : ∃ c r, leaf = c :: r ∧ nameStart c = true) (ms : List Mod) :
    ∃ c r, nested leaf ms = c :: r ∧ nameStart c = true := by
  match ms with
  | [] => exact h
  | .nullable :: ms => exact ⟨_, _, rfl, by decide⟩
  | .list :: ms => exact ⟨_, _, rfl, by decide⟩

theorem piece_nested {leaf : Str} {l : Path} (h : Piece leaf l.tokens) (hs : ∃ c r, leaf = c :: r ∧ nameStart c = true) (ms : List Mod) :
    TypePiece (nested leaf ms) (argumentType l ms).tokens := by
  have key : ∀ b : String, (match str b with | [] => false | c :: cs => nameStart c && cs.all nameCont) = true → str b ∉ keywords →
      Piece (str "std::" ++ str b) (path "std" [b]).tokens := by
    intro b h1 h2
    have := piece_known (a := "std") (bs := [b]) (known_ok (by decide) h1 (by decide +kernel) h2)
    have e : str "std::" = str "std" ++ str "::" := by decide
    simpa [e] using this
  induction ms with
  | nil => exact TypePiece.of h
  | cons m ms ih =>
    cases m with
    | nullable =>
      have := (Piece.angle (key "optional" (by decide) (by decide +kernel)) ih (start_nested hs ms)).close
      have e : str "std::optional<" = str "std::" ++ str "optional" ++ str "<" := by decide
      simpa only [nested, argumentType, CType.tokens, e] using this
    | list =>
      have := (Piece.angle (key "vector" (by decide) (by decide +kernel)) ih (start_nested hs ms)).close
      have e : str "std::vector<" = str "std::" ++ str "vector" ++ str "<" := by decide
      simpa only [nested, argumentType, CType.tokens, e] using this

theorem piece_leaf {f : InputField} (h : IsName f.type ∧ cpp f.type ∉ keywords) :
    Piece (typeText f) (leafPath f).tokens ∧ ∃ c r, typeText f = c :: r ∧ nameStart c = true := by
  have hs : ∃ c r, cpp f.type = c :: r ∧ nameStart c = true := by
    obtain ⟨c, cs, e, h1, -⟩ := cpp_name h.1
    exact ⟨c, cs, e, h1⟩
  unfold typeText leafPath
  cases f.fieldType with
  | builtin => exact ⟨piece_builtin _, start_builtin _⟩
  | enum => exact ⟨Piece.word (cpp_name h.1) h.2, hs⟩
  | input => exact ⟨Piece.word (cpp_name h.1) h.2, hs⟩
  | scalar => exact ⟨piece_response (b := "Value") (by decide) (by decide +kernel), ⟨_, _, rfl, by decide⟩⟩

theorem closed_member {f : InputField} (h : IsName f.type ∧ cpp f.type ∉ keywords) (hn : IsName f.name) (hk : cpp f.name ∉ keywords) :
    Closed (memberText f) (memberD f).tokens := by
  have h1 := Closed.thenT lit_tab (piece_nested (piece_leaf h).1 (piece_leaf h).2 f.modifiers)
  have l1 : Closed (str " ") [] := Closed.lit _ (by decide +kernel)
  have l2 : Closed (str ";\n") [p ";"] := Closed.lit _ (by decide +kernel)
  have h2 := (l1.thenP (Piece.word (cpp_name hn) hk)).then l2 (Begins.lit (by decide))
  intro r b hr
  have h3 := h2 r b hr
  have e : str " " = [chr ' '] := by decide
  rw [e] at h3
  have h4 := h1 (chr ' ') _ _ (.inl rfl) h3
  rw [memberText, getInputCppType_eq, e]
  simpa [memberD, Member.tokens] using h4

theorem closed_struct {t : InputType} (h : IsName t.type ∧ cpp t.type ∉ keywords) (hf : FieldsOk print read t.fields)
    (hm : ∀ f ∈ t.fields, cpp f.name ∉ keywords) : Closed (structText t) (structD t).tokens := by
  have l1 : Closed (str "struct ") [kw "struct"] := Closed.lit _ (by decide +kernel)
  have l2 : Closed (str "\n{\n") [p "{"] := Closed.lit _ (by decide +kernel)
  have l3 : Closed (str "};\n\n") [p "}", p ";"] := Closed.lit _ (by decide +kernel)
  have h1 := closed_flatMap (xs := t.fields) (g := fun f => (memberD f).tokens) fun f hx =>
    closed_member (hf.type f hx) (hf.name f hx) (hm f hx)
  refine Closed.of ((((l1.thenP (Piece.word (cpp_name h.1) h.2)).then l2 (Begins.lit (by decide))).then h1).then l3) ?_ ?_
  · simp only [structText, List.append_assoc]
  · simp [structD, TypeDecl.tokens, List.flatMap_map]

theorem reads_header (h : HeaderOk T) (ht : TypesOk print read T q) : Cpp.Code.ReadsTypes (headerText T) (headerD T) := by
  have h1 := closed_flatMap (xs := T.enums) (g := fun t => (enumD t).tokens) fun t hx =>
    Closed.of (closed_enumClass (h.enum t hx).1 (h.enum t hx).2 (h.value t hx)) rfl rfl
  have h2 := closed_flatMap (xs := T.inputs) (g := fun t => (structD t).tokens) fun t hx =>
    closed_struct (ht.name t hx) (ht.fields t hx) (h.member t hx)
  refine Closed.lexes (Closed.of (h1.then h2) rfl ?_)
  simp [headerD, List.flatMap_map]

/-! ## The source -/

/-- A string without quotes, backslashes and line ends. -/
theorem piece_plain {s : Str} (h : ∀ c ∈ s, (c != chr '"' && c != chr '\\' && c != chr '\n') = true) :
    Piece (str "\"" ++ s ++ str "\"") [.text s false] := by
  intro r b hs hr
  obtain ⟨c, r, rfl, hc, hq⟩ := hs
  rw [List.append_assoc, List.append_assoc]
  have e : ∀ x, str "\"" ++ x = chr '"' :: x := fun _ => rfl
  rw [e (s ++ _), List.singleton_append]
  refine .token (rest := c :: r) ?_ hr
  have h1 : nameStart (chr '"') = false := by decide
  have h2 : isDigit (chr '"') = false := by decide
  obtain ⟨k1, k2⟩ := Cpp.takeWhile_all (f := fun c => c != chr '"' && c != chr '\\' && c != chr '\n') (s := s) (t := str "\"" ++ c :: r)
    h (by rintro _ _ h; cases h; decide)
  unfold Cpp.token
  simp only [h1, h2, Bool.false_eq_true, if_false, if_true]
  have : Cpp.plainText (s ++ (str "\"" ++ c :: r)) = some (s, c :: r) := by
    unfold Cpp.plainText
    dsimp only
    rw [k1, k2]
    rfl
  rw [this]
  simp [Cpp.suffixed, hc]

theorem piece_message {t : EnumType} (h : IsName t.type) : Piece (str "\"" ++ message t ++ str "\"") [.text (message t) false] := by
  refine piece_plain fun c hc => ?_
  have hb : ∀ c : Byte, nameCont c = true → (c != chr '"' && c != chr '\\' && c != chr '\n') = true := by decide +kernel
  have h1 : ∀ c ∈ str "not a valid ", (c != chr '"' && c != chr '\\' && c != chr '\n') = true := by decide
  have h2 : ∀ c ∈ str " value", (c != chr '"' && c != chr '\\' && c != chr '\n') = true := by decide
  obtain ⟨d, cs, e, hd, hcs⟩ := h
  simp only [message, List.mem_append, or_assoc] at hc
  rcases hc with hc | hc | hc
  · exact h1 c hc
  · rw [e] at hc
    rcases List.mem_cons.1 hc with rfl | hc
    · exact hb _ (by simp [nameCont, hd])
    · exact hb _ (hcs c hc)
  · exact h2 c hc

theorem piece_names {t : EnumType} (h : IsName t.type) : Piece (namesVar t) [.word (namesVar t)] :=
  Piece.word (snames_name (cpp_name h)) (snames_word _)

/-- `throw service::schema_exception { { "not a valid X value" } };` -/
theorem closed_throw {t : EnumType} (h : IsName t.type) :
    Closed (str "throw service::schema_exception { { " ++ (str "\"" ++ message t ++ str "\"") ++ str " } };") (throwTokens (message t)) := by
  have l1 : Closed (str "throw service::schema_exception { { ") [kw "throw", .word (str "service"), p "::", .word (str "schema_exception"),
    p "{", p "{"] := Closed.lit _ (by decide +kernel)
  have l2 : Closed (str " } };") [p "}", p "}", p ";"] := Closed.lit _ (by decide +kernel)
  refine Closed.of ((l1.thenP (piece_message h)).then l2 (Begins.lit (by decide))) rfl ?_
  simp [throwTokens, path, Path.tokens]

theorem closed_begin {t : EnumType} (h : IsName t.type) : Closed (namesVar t ++ str ".cbegin()") (memberTokens (namesVar t) "cbegin") :=
  Closed.of ((piece_names h).then (Closed.lit [p ".", .word (str "cbegin"), p "(", p ")"] (by decide +kernel)) (Begins.lit (by decide))) rfl rfl

theorem closed_end {t : EnumType} (h : IsName t.type) : Closed (namesVar t ++ str ".cend()") (memberTokens (namesVar t) "cend") :=
  Closed.of ((piece_names h).then (Closed.lit [p ".", .word (str "cend"), p "(", p ")"] (by decide +kernel)) (Begins.lit (by decide))) rfl rfl

theorem closed_argument (hn : IsNamespace ns q) {t : EnumType} (h : IsName t.type ∧ cpp t.type ∉ keywords) :
    Closed (argumentText ns t) (argumentF q t).tokens := by
  have ht := piece_type hn h.1 h.2
  have ha := piece_angle ht (start_type hn t.type)
  have l1 : Closed (str "\ntemplate <>\n") [kw "template", p "<", p ">"] := Closed.lit _ (by decide +kernel)
  have l2 : Closed (str " ") [] := Closed.lit _ (by decide +kernel)
  have w1 : Piece (str "ModifiedArgument") [.word (str "ModifiedArgument")] := Piece.word (isName_lit (by decide)) (by decide +kernel)
  have l3 : Closed (str ">::convert(const response::Value& value)\n{\n\t") ([p ">", p "::", .word (str "convert"), p "(", kw "const"] ++
    (path "response" ["Value"]).tokens ++ [p "&", .word (str "value"), p ")", p "{"]) := Closed.lit _ (by decide +kernel)
  have l4 : Closed (str "if (!value.maybe_enum())\n\t{\n\t\t") ([kw "if", p "(", p "!"] ++ memberTokens (str "value") "maybe_enum" ++
    [p ")", p "{"]) := Closed.lit _ (by decide +kernel)
  have l5 : Closed (str "\n\t}\n\n\tconst auto itr = std::find(") ([p "}", kw "const", kw "auto", .word (str "itr"), p "="] ++
    (path "std" ["find"]).tokens ++ [p "("]) := Closed.lit _ (by decide +kernel)
  have l6 : Closed (str ", ") [p ","] := Closed.lit _ (by decide +kernel)
  have l7 : Closed (str ", value.get<response::StringType>());\n\n\tif (itr == ") ([p ",", .word (str "value"), p ".", .word (str "get"),
    p "<"] ++ (path "response" ["StringType"]).tokens ++ [p ">", p "(", p ")", p ")", p ";"] ++ [kw "if", p "(", .word (str "itr"), p "=="]) :=
    Closed.lit _ (by decide +kernel)
  have l8 : Closed (str ")\n\t{\n\t\t") [p ")", p "{"] := Closed.lit _ (by decide +kernel)
  have l9 : Closed (str "\n\t}\n\n\treturn ") [p "}", kw "return"] := Closed.lit _ (by decide +kernel)
  have w2 : Piece (str "static_cast") [kw "static_cast"] := fun r b hs hr =>
    Lexes.word (isName_lit (s := "static_cast") (by decide)) hs hr
  have l10 : Closed (str ">(itr - ") [p ">", p "(", .word (str "itr"), p "-"] := Closed.lit _ (by decide +kernel)
  have l11 : Closed (str ");\n}\n") [p ")", p ";", p "}"] := Closed.lit _ (by decide +kernel)
  have b : ∀ {s : Str}, Cpp.startsB s = true → Begins s := Begins.lit
  have h1 := (((l1.thenP ht).then l2 (b (by decide))).thenP w1).thenP ha ((b (by decide)).append _) |>.then l3 (b (by decide)) |>.then l4
  have h2 := (h1.then (closed_throw h.1)).then l5 |>.then (closed_begin h.1) |>.then l6 |>.then (closed_end h.1) |>.then l7
  have h3 := h2.then (closed_end h.1) |>.then l8 |>.then (closed_throw h.1) |>.then l9
  have h4 := (h3.thenP w2).thenP ha ((b (by decide)).append _) |>.then l10 (b (by decide)) |>.then (closed_begin h.1) |>.then l11
  refine Closed.of h4 ?_ ?_
  · have e1 : str " ModifiedArgument<" = str " " ++ str "ModifiedArgument" ++ str "<" := by decide
    have e2 : str ">::convert(const response::Value& value)\n{\n\tif (!value.maybe_enum())\n\t{\n\t\tthrow service::schema_exception { { \"not a valid " =
      str ">::convert(const response::Value& value)\n{\n\t" ++ str "if (!value.maybe_enum())\n\t{\n\t\t" ++
      str "throw service::schema_exception { { " ++ str "\"" ++ str "not a valid " := by decide +kernel
    have e3 : str " value\" } };\n\t}\n\n\tconst auto itr = std::find(s_names" = str " value" ++ str "\"" ++ str " } };" ++
      str "\n\t}\n\n\tconst auto itr = std::find(" ++ str "s_names" := by decide +kernel
    have e4 : str ".cbegin(), s_names" = str ".cbegin()" ++ str ", " ++ str "s_names" := by decide
    have e5 : str ".cend(), value.get<response::StringType>());\n\n\tif (itr == s_names" = str ".cend()" ++
      str ", value.get<response::StringType>());\n\n\tif (itr == " ++ str "s_names" := by decide +kernel
    have e6 : str ".cend())\n\t{\n\t\tthrow service::schema_exception { { \"not a valid " = str ".cend()" ++ str ")\n\t{\n\t\t" ++
      str "throw service::schema_exception { { " ++ str "\"" ++ str "not a valid " := by decide +kernel
    have e7 : str " value\" } };\n\t}\n\n\treturn static_cast<" = str " value" ++ str "\"" ++ str " } };" ++ str "\n\t}\n\n\treturn " ++
      str "static_cast" ++ str "<" := by decide +kernel
    have e8 : str ">(itr - s_names" = str ">(itr - " ++ str "s_names" := by decide
    have e9 : str ".cbegin());\n}\n" = str ".cbegin()" ++ str ");\n}\n" := by decide
    unfold argumentText
    simp only [qualified, e1, e2, e3, e4, e5, e6, e7, e8, e9, List.append_assoc, message, namesVar]
  · unfold EnumArgument.tokens argumentF
    simp only [List.append_assoc, List.cons_append, List.nil_append]

set_option maxRecDepth 4000 in
theorem closed_result (hn : IsNamespace ns q) {t : EnumType} (h : IsName t.type ∧ cpp t.type ∉ keywords) :
    Closed (resultText ns t) (resultF q t).tokens := by
  have ht := piece_type hn h.1 h.2
  have ha := piece_angle ht (start_type hn t.type)
  have b : ∀ {s : Str}, Cpp.startsB s = true → Begins s := Begins.lit
  have l1 : Closed (str "\ntemplate <>\nstd::future<service::ResolverResult> ") ([kw "template", p "<", p ">"] ++ (path "std" ["future"]).tokens ++
    [p "<"] ++ (path "service" ["ResolverResult"]).tokens ++ [p ">"]) := Closed.lit _ (by decide +kernel)
  have w1 : Piece (str "ModifiedResult") [.word (str "ModifiedResult")] := Piece.word (isName_lit (by decide)) (by decide +kernel)
  have l2 : Closed (str ">::convert(") [p ">", p "::", .word (str "convert"), p "("] := Closed.lit _ (by decide +kernel)
  have w2 : Piece (str "service::FieldResult") (path "service" ["FieldResult"]).tokens := by
    have := piece_known (a := "service") (bs := ["FieldResult"]) (known_ok (by decide) (by decide) (by decide +kernel) (by decide +kernel))
    have e : str "service::FieldResult" = str "service" ++ (str "::" ++ str "FieldResult") := by decide
    simpa [e] using this
  have l3 : Closed (str ">&& result, ResolverParams&& params)\n{\n\treturn resolve(std::move(result), std::move(params),\n\t\t[](")
    ([p ">", p "&&", .word (str "result"), p ","] ++ [.word (str "ResolverParams"), p "&&", .word (str "params"), p ")", p "{"] ++
    [kw "return", .word (str "resolve"), p "("] ++ (path "std" ["move"]).tokens ++ [p "(", .word (str "result"), p ")", p ","] ++
    (path "std" ["move"]).tokens ++ [p "(", .word (str "params"), p ")", p ",", p "[", p "]", p "("]) := Closed.lit _ (by decide +kernel)
  have l4 : Closed (str " value, const ResolverParams&)\n\t\t{\n\t\t\tresponse::Value result(response::Type::EnumValue);\n\n\t\t\tresult.set<response::StringType>(")
    ([.word (str "value"), p ",", kw "const", .word (str "ResolverParams"), p "&", p ")", p "{"] ++
    (path "response" ["Value"]).tokens ++ [.word (str "result"), p "("] ++ (path "response" ["Type", "EnumValue"]).tokens ++
    [p ")", p ";", .word (str "result"), p ".", .word (str "set"), p "<"] ++ (path "response" ["StringType"]).tokens ++
    [p ">", p "("]) := lit' 300 _ (by decide +kernel)
  have l5 : Closed (str "response::StringType { ") ((path "response" ["StringType"]).tokens ++ [p "{"]) := Closed.lit _ (by decide +kernel)
  have l6 : Closed (str "[static_cast<size_t>(value)] });\n\n\t\t\treturn result;\n\t\t});\n}\n\n") ([p "[", kw "static_cast", p "<",
    .word (str "size_t"), p ">", p "(", .word (str "value"), p ")", p "]", p "}", p ")", p ";",
    kw "return", .word (str "result"), p ";", p "}", p ")", p ";", p "}"]) := Closed.lit _ (by decide +kernel)
  have h1 := (l1.thenP w1).thenP ha ((b (by decide)).append _) |>.then l2 (b (by decide))
  have h2 := (h1.thenP w2).thenP ha ((b (by decide)).append _) |>.then l3 (b (by decide))
  have h3 := (h2.thenP ht).then l4 (b (by decide)) |>.then l5
  have h4 := (h3.thenP (piece_names h.1)).then l6 (b (by decide))
  refine Closed.of h4 ?_ ?_
  · have e1 : str "\ntemplate <>\nstd::future<service::ResolverResult> ModifiedResult<" =
      str "\ntemplate <>\nstd::future<service::ResolverResult> " ++ str "ModifiedResult" ++ str "<" := by decide +kernel
    have e2 : str ">::convert(service::FieldResult<" = str ">::convert(" ++ str "service::FieldResult" ++ str "<" := by decide +kernel
    have e3 : str " value, const ResolverParams&)\n\t\t{\n\t\t\tresponse::Value result(response::Type::EnumValue);\n\n\t\t\tresult.set<response::StringType>(response::StringType { s_names" =
      str " value, const ResolverParams&)\n\t\t{\n\t\t\tresponse::Value result(response::Type::EnumValue);\n\n\t\t\tresult.set<response::StringType>(" ++
      str "response::StringType { " ++ str "s_names" := by decide +kernel
    unfold resultText
    simp only [qualified, e1, e2, e3, List.append_assoc, namesVar]
  · unfold EnumResult.tokens resultF
    simp only [List.append_assoc, List.cons_append, List.nil_append]

theorem enum_tokens (q : Path) (t : EnumType) : (enumS q t).flatMap ServiceDecl.tokens =
    (arrayDecl t).tokens ++ (argumentF q t).tokens ++ (resultF q t).tokens := by
  have : (ServiceDecl.array t.values.length (namesVar t) (t.values.map (·.value))).tokens = (arrayDecl t).tokens := rfl
  rw [enumS, List.flatMap_cons, List.flatMap_cons, List.flatMap_cons, List.flatMap_nil, List.append_nil, List.append_assoc, this]
  unfold ServiceDecl.tokens
  rfl

theorem reads_service (hn : IsNamespace ns q) (h : HeaderOk T) (ht : TypesOk print read T q) :
    Cpp.Code.ReadsService (serviceText print ns T) (serviceS print q T) := by
  have h1 := closed_flatMap (xs := T.enums) (f := enumText ns) (g := fun t => (enumS q t).flatMap ServiceDecl.tokens) fun t hx =>
    Closed.of (((closed_array (h.enum t hx).1 fun v hv => (h.value t hx v hv).1).then (closed_argument hn (h.enum t hx))).then
      (closed_result hn (h.enum t hx))) rfl (enum_tokens q t)
  have h2 := closed_flatMap (xs := T.inputs) (f := inputText print ns) (g := fun t => (inputF (numberE print) q t).tokens) fun t hx =>
    closed_input hn print read (ht.name t hx).1 (ht.name t hx).2 (ht.fields t hx)
  refine Closed.lexes (Closed.of (h1.then h2) rfl ?_)
  rw [serviceS, List.flatMap_append, List.flatMap_assoc, List.flatMap_map]
  rfl

end Verif.GenTypes
