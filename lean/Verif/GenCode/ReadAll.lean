import Verif.GenCode.Read

/-!
# Reading the text of conversions and arguments
-/
namespace Verif.GenCode
open Verif.Value Verif.Resp Verif.Modifiers Verif.Text
open Verif.Gen (InputField InputType getTypeModifiers separated modifierText toUpper)
open Verif.GenText
open Verif.Cpp (Path path word Tok p kw Lexes StartsB commaTokens keywords NoClose)
open Verif.Cpp.Code (Expr Stmt Function templateTokens)

/-! ## Names -/

theorem capital_name {f : InputField} (h : IsName f.name) : IsName (capital f) := by
  obtain ⟨c, cs, e, h1, h2⟩ := cpp_name h
  have key : ∀ c : Byte, nameStart c = true → nameStart (toUpper c) = true := by decide +kernel
  exact ⟨toUpper c, cs, by rw [capital, e], key c h1, h2⟩

theorem prefixed_name {f : InputField} (h : IsName f.name) {pre : Str} (hp : IsName pre) : IsName (pre ++ capital f) :=
  IsName.prefix hp (capital_name h)

theorem arg_word (n : Str) : str "arg" ++ n ∉ keywords :=
  not_keyword (Cpp.chr 'a') (Cpp.chr 'r') (str "g" ++ n) (by rfl) (by decide +kernel)
theorem value_word (n : Str) : str "value" ++ n ∉ keywords :=
  not_keyword (Cpp.chr 'v') (Cpp.chr 'a') (str "lue" ++ n) (by rfl) (by decide +kernel)
theorem pair_word (n : Str) : str "pair" ++ n ∉ keywords :=
  not_keyword (Cpp.chr 'p') (Cpp.chr 'a') (str "ir" ++ n) (by rfl) (by decide +kernel)

theorem arg_name : IsName (str "arg") := ⟨Cpp.chr 'a', str "rg", by decide, by decide, by decide⟩
theorem value_name : IsName (str "value") := ⟨Cpp.chr 'v', str "alue", by decide, by decide, by decide⟩
theorem pair_name : IsName (str "pair") := ⟨Cpp.chr 'p', str "air", by decide, by decide, by decide⟩

/-! ## Types -/

variable {ns : Str} {q : Path}

theorem typePath_ok (hn : IsNamespace ns q) {type : Str} (h : IsName type) (hk : cpp type ∉ keywords) :
    ∀ s ∈ (typePath q type).head :: (typePath q type).tail, IsName s ∧ s ∉ keywords := by
  intro s hs
  simp only [typePath, List.mem_cons, List.mem_append, List.not_mem_nil, or_false] at hs
  rcases hs with rfl | hs | rfl
  · exact hn.2 _ (by simp)
  · exact hn.2 _ (by simp [hs])
  · exact ⟨cpp_name h, hk⟩

theorem typePath_text (hn : IsNamespace ns q) (type : Str) :
    ns ++ str "::" ++ cpp type = (typePath q type).head ++ (typePath q type).tail.flatMap fun s => str "::" ++ s := by
  simp [typePath, hn.1]

theorem piece_type (hn : IsNamespace ns q) {type : Str} (h : IsName type) (hk : cpp type ∉ keywords) :
    Piece (ns ++ str "::" ++ cpp type) (typePath q type).tokens := by
  rw [typePath_text hn]
  exact piece_path (typePath_ok hn h hk)

theorem start_type (hn : IsNamespace ns q) (type : Str) : ∃ c r, ns ++ str "::" ++ cpp type = c :: r ∧ nameStart c = true := by
  rw [hn.1, List.append_assoc, List.append_assoc]
  exact name_start (hn.2 _ (by simp)).1 _

theorem piece_known {a : String} {bs : List String} (h : ∀ s ∈ str a :: bs.map str, IsName s ∧ s ∉ keywords) :
    Piece (str a ++ (bs.map str).flatMap fun s => str "::" ++ s) (path a bs).tokens := piece_path (q := path a bs) h

theorem isName_lit {s : String} (h : (match str s with | [] => false | c :: cs => nameStart c && cs.all nameCont) = true) :
    IsName (str s) := by
  revert h
  generalize str s = w
  intro h
  cases w with
  | nil => simp at h
  | cons c cs =>
    simp only [Bool.and_eq_true, List.all_eq_true] at h
    exact ⟨c, cs, rfl, h.1, h.2⟩

theorem known_ok {a b : String} (ha : (match str a with | [] => false | c :: cs => nameStart c && cs.all nameCont) = true)
    (hb : (match str b with | [] => false | c :: cs => nameStart c && cs.all nameCont) = true) (ka : str a ∉ keywords)
    (kb : str b ∉ keywords) : ∀ s ∈ str a :: [b].map str, IsName s ∧ s ∉ keywords := by
  intro s hs
  simp only [List.map_cons, List.map_nil, List.mem_cons, List.not_mem_nil, or_false] at hs
  rcases hs with rfl | rfl
  · exact ⟨isName_lit ha, ka⟩
  · exact ⟨isName_lit hb, kb⟩

theorem piece_response {b : String} (hb : (match str b with | [] => false | c :: cs => nameStart c && cs.all nameCont) = true)
    (kb : str b ∉ keywords) : Piece (str "response::" ++ str b) (path "response" [b]).tokens := by
  have := piece_known (a := "response") (bs := [b]) (known_ok (by decide) hb (by decide +kernel) kb)
  have e : str "response::" = str "response" ++ str "::" := by decide
  simpa [e] using this

theorem piece_builtin (type : Str) : Piece (builtinType type) (builtinPath type).tokens := by
  unfold builtinType builtinPath
  split
  · exact piece_response (b := "IntType") (by decide) (by decide +kernel)
  · split
    · exact piece_response (b := "FloatType") (by decide) (by decide +kernel)
    · split
      · exact piece_response (b := "StringType") (by decide) (by decide +kernel)
      · split
        · exact piece_response (b := "BooleanType") (by decide) (by decide +kernel)
        · exact piece_response (b := "IdType") (by decide) (by decide +kernel)

theorem start_builtin (type : Str) : ∃ c r, builtinType type = c :: r ∧ nameStart c = true := by
  unfold builtinType
  split
  · exact ⟨_, _, rfl, by decide⟩
  · split
    · exact ⟨_, _, rfl, by decide⟩
    · split
      · exact ⟨_, _, rfl, by decide⟩
      · split
        · exact ⟨_, _, rfl, by decide⟩
        · exact ⟨_, _, rfl, by decide⟩

theorem piece_access (hn : IsNamespace ns q) {f : InputField} (h : IsName f.type) (hk : cpp f.type ∉ keywords) :
    Piece (accessText ns f) (accessPath q f).tokens ∧ ∃ c r, accessText ns f = c :: r ∧ nameStart c = true := by
  unfold accessText accessPath
  cases f.fieldType with
  | builtin => exact ⟨piece_builtin _, start_builtin _⟩
  | enum => exact ⟨piece_type hn h hk, start_type hn _⟩
  | input => exact ⟨piece_type hn h hk, start_type hn _⟩
  | scalar => exact ⟨piece_response (b := "Value") (by decide) (by decide +kernel), _, _, rfl, by decide⟩

/-! ## Modifiers -/

theorem piece_modifier (m : Mod) : Piece (modifierText (str "service::") m) (modPath m).tokens := by
  have key : ∀ b : String, (match str b with | [] => false | c :: cs => nameStart c && cs.all nameCont) = true → str b ∉ keywords →
      Piece (str "service::" ++ (str "TypeModifier::" ++ str b)) (path "service" ["TypeModifier", b]).tokens := by
    intro b h1 h2
    have := piece_known (a := "service") (bs := ["TypeModifier", b]) (by
      intro s hs
      simp only [List.map_cons, List.map_nil, List.mem_cons, List.not_mem_nil, or_false] at hs
      rcases hs with rfl | rfl | rfl
      · exact ⟨isName_lit (by decide), by decide +kernel⟩
      · exact ⟨isName_lit (by decide), by decide +kernel⟩
      · exact ⟨isName_lit h1, h2⟩)
    have e : str "service::" = str "service" ++ str "::" := by decide
    have e2 : str "TypeModifier::" = str "TypeModifier" ++ str "::" := by decide
    simpa [e, e2] using this
  cases m
  · exact key "Nullable" (by decide) (by decide +kernel)
  · exact key "List" (by decide) (by decide +kernel)

theorem start_modifier (m : Mod) : ∃ c r, modifierText (str "service::") m = c :: r ∧ nameStart c = true := by
  cases m
  · exact ⟨_, _, rfl, by decide⟩
  · exact ⟨_, _, rfl, by decide⟩

theorem piece_separated (m : Mod) (ms : List Mod) :
    Piece (separated (str ", ") ((m :: ms).map (modifierText (str "service::"))))
      (commaTokens (((m :: ms).map modPath).map Path.tokens)) := by
  have hc : Closed (str ", ") [p ","] := Closed.lit _ (by decide +kernel)
  induction ms generalizing m with
  | nil => simpa [separated, commaTokens] using piece_modifier m
  | cons n ms ih =>
    refine Piece.of ((piece_modifier m).thenP (hc.thenP (ih n)) ((Begins.lit (by decide)).append _)) ?_ ?_
    · simp [separated]
    · simp [commaTokens]

/-- The modifiers and `(`. -/
theorem closed_modifiers (ms : List Mod) :
    Closed (getTypeModifiers (str "service::") ms ++ str "(") (templateTokens (ms.map modPath) ++ [p "("]) ∧
    Begins (getTypeModifiers (str "service::") ms ++ str "(") := by
  rw [Verif.Gen.C41_template_arguments]
  cases ms with
  | nil => exact ⟨Closed.lit _ (by decide +kernel), Begins.lit (by decide)⟩
  | cons m ms =>
    have h1 : Closed (str ">(") [p ">", p "("] := Closed.lit _ (by decide +kernel)
    have h2 : ∃ c r, separated (str ", ") ((m :: ms).map (modifierText (str "service::"))) = c :: r ∧ nameStart c = true := by
      obtain ⟨c, r, e, hc⟩ := start_modifier m
      cases ms with
      | nil => exact ⟨c, r, by simpa [separated] using e, hc⟩
      | cons n ms => exact ⟨c, r ++ str ", " ++ separated (str ", ") ((n :: ms).map (modifierText (str "service::"))), by
          simp [separated, e], hc⟩
    refine ⟨Closed.of ((piece_angle (piece_separated m ms) h2).then h1 (Begins.lit (by decide))) ?_ ?_, ?_⟩
    · have e : str ">(" = str ">" ++ str "(" := by decide
      rw [if_neg (by simp), e]
      simp only [List.append_assoc]
    · simp [templateTokens]
    · rw [if_neg (by simp)]
      exact (((Begins.lit (by decide)).append _).append _).append _

/-! ## Declarations -/

/-- `service::ModifiedArgument<X>::m<...>(` -/
theorem closed_access (hn : IsNamespace ns q) {f : InputField} (h : IsName f.type) (hk : cpp f.type ∉ keywords) (m : String)
    (hm : (match str m with | [] => false | c :: cs => nameStart c && cs.all nameCont) = true) (km : str m ∉ keywords) :
    Closed (getArgumentAccessType ns f ++ str "::" ++ str m ++ getTypeModifiers (str "service::") f.modifiers ++ str "(")
      ((path "service" ["ModifiedArgument"]).tokens ++ [p "<"] ++ (accessPath q f).tokens ++ [p ">", p "::", .word (str m)] ++
        templateTokens (f.modifiers.map modPath) ++ [p "("]) := by
  have h1 := piece_known (a := "service") (bs := ["ModifiedArgument"]) (known_ok (by decide) (by decide) (by decide +kernel) (by decide +kernel))
  obtain ⟨h2, h3⟩ := piece_access hn h hk
  have h4 : Closed (str ">::") [p ">", p "::"] := Closed.lit _ (by decide +kernel)
  obtain ⟨h5, h6⟩ := closed_modifiers f.modifiers
  refine Closed.of (((((h1.thenP (piece_angle h2 h3) ((Begins.lit (by decide)).append _)).then h4 (Begins.lit (by decide))).thenP
    (Piece.word (isName_lit hm) km)).then h5 h6)) ?_ ?_
  · have e1 : str "service::ModifiedArgument<" = str "service" ++ (str "::" ++ str "ModifiedArgument") ++ str "<" := by decide
    have e2 : str ">::" = str ">" ++ str "::" := by decide
    simp [getArgumentAccessType, e1, e2]
  · simp

/-- The call with its arguments, and `;`. -/
theorem closed_call (hn : IsNamespace ns q) {f : InputField} (h : IsName f.type) (hk : cpp f.type ∉ keywords) (hf : IsName f.name)
    (m : String) (hm : (match str m with | [] => false | c :: cs => nameStart c && cs.all nameCont) = true) (km : str m ∉ keywords)
    {t : Str} {e : Expr} {a : List Tok} (ht : Closed (str ", " ++ t) (p "," :: e.tokens ++ a)) :
    Closed (getArgumentAccessType ns f ++ str "::" ++ str m ++ getTypeModifiers (str "service::") f.modifiers ++ str "(\"" ++ f.name ++
      str "\", " ++ t) ((Expr.template (path "service" ["ModifiedArgument"]) (accessPath q f) (str m) (f.modifiers.map modPath)
        [.text f.name, e]).tokens.dropLast ++ a) := by
  refine Closed.of ((closed_access hn h hk m hm km).then (quoted_text hf ht ((Begins.lit (by decide)).append _))) ?_ ?_
  · have e1 : str "(\"" = str "(" ++ str "\"" := by decide
    have e2 : str "\", " = str "\"" ++ str ", " := by decide
    simp [e1, e2]
  · have : ∀ (x : List Tok) (y : Tok), (x ++ [y]).dropLast = x := fun x y => by simp
    simp only [Expr.tokens, Expr.listTokens, Expr.moreTokens]
    rw [this]
    simp

/-- How the arguments and the default values are written. -/
structure TokenOk (t : Str) (e : Expr) : Prop where
  last : Closed (str ", " ++ (t ++ str ");\n")) (p "," :: e.tokens ++ [p ")", p ";"])
  inner : Closed (str ", " ++ (t ++ str "));\n")) (p "," :: e.tokens ++ [p ")", p ")", p ";"])

theorem dropLast_template (c t : Path) (f : Str) (ms : List Path) (args : List Expr) (b : List Tok) :
    (Expr.template c t f ms args).tokens.dropLast ++ p ")" :: b = (Expr.template c t f ms args).tokens ++ b := by
  have : ∀ (x : List Tok) (y : Tok), (x ++ [y]).dropLast = x := fun x y => by simp
  simp only [Expr.tokens]
  rw [this]
  simp

theorem closed_declaration (hn : IsNamespace ns q) {f : InputField} (h : IsName f.type) (hk : cpp f.type ∉ keywords)
    (hf : IsName f.name) {pre a d : Str} {ae de : Expr} (hp : IsName pre) (kp : ∀ n, pre ++ n ∉ keywords) (ha : TokenOk a ae) (hd : TokenOk d de) :
    Closed (getArgumentDeclaration ns pre a d f) (Stmt.listTokens (declarationS q pre ae de f)) := by
  have l1 : Closed (str "\tauto ") [kw "auto"] := by
    have := Closed.lit (s := str "\tauto ") [kw "auto"] (by decide +kernel)
    exact this
  have l2 : Closed (str " = ") [p "="] := Closed.lit _ (by decide +kernel)
  have w1 := Piece.word (prefixed_name hf hp) (kp (capital f))
  have w2 := Piece.word (prefixed_name hf pair_name) (pair_word (capital f))
  by_cases hz : f.defaultValue.type = .null
  · have h1 := closed_call (q := q) hn h hk hf "require" (by decide) (by decide +kernel) ha.last
    refine Closed.of (((l1.thenP w1).then l2 (Begins.lit (by decide))).then h1) ?_ ?_
    · have e : str "::require" = str "::" ++ str "require" := by decide
      simp [getArgumentDeclaration, hz, e]
    · simp only [declarationS, hz, if_true, accessE, Stmt.listTokens, Stmt.tokens]
      rw [dropLast_template]
      simp
  · have h1 := closed_call (q := q) hn h hk hf "find" (by decide) (by decide +kernel) ha.last
    have h2 := closed_call (q := q) hn h hk hf "require" (by decide) (by decide +kernel) hd.inner
    have l3 : Closed (str " = (") [p "=", p "("] := Closed.lit _ (by decide +kernel)
    have l4 : Closed (str ".second\n\t\t? std::move(") [p ".", .word (str "second"), p "?", .word (str "std"), p "::", .word (str "move"),
      p "("] := Closed.lit _ (by decide +kernel)
    have l5 : Closed (str ".first)\n\t\t: ") [p ".", .word (str "first"), p ")", p ":"] := Closed.lit _ (by decide +kernel)
    refine Closed.of ((((((((((((l1.thenP w2).then l2 (Begins.lit (by decide))).then h1).then l1).thenP w1).then l3 (Begins.lit (by decide))).thenP
      w2).then l4 (Begins.lit (by decide))).thenP w2).then l5 (Begins.lit (by decide))).then h2)) ?_ ?_
    · have e : str "::require" = str "::" ++ str "require" := by decide
      have e1 : str "::find" = str "::" ++ str "find" := by decide
      have e2 : str "\tauto pair" = str "\tauto " ++ str "pair" := by decide
      have e3 : str " = (pair" = str " = (" ++ str "pair" := by decide
      have e4 : str ".second\n\t\t? std::move(pair" = str ".second\n\t\t? std::move(" ++ str "pair" := by decide
      have e5 : str ");\n\tauto " = str ");\n" ++ str "\tauto " := by decide
      simp only [getArgumentDeclaration, if_neg hz, e, e1, e2, e3, e4, e5, List.append_assoc]
    · simp only [declarationS, hz, if_false, accessE, Stmt.listTokens, Stmt.tokens, pairVar]
      rw [dropLast_template, dropLast_template]
      simp [Expr.tokens, Expr.listTokens, Expr.moreTokens, path, Path.tokens]

/-! ## Default values -/

theorem closed_defaults (print : Double → Str) (read : Str → Double) {x : Str} (hx : Closed (x ++ str " = []()\n\t{\n\t\t") [.word x, p "=", p "[", p "]", p "(", p ")", p "{"])
    (fs : List InputField) (hf : ∀ f ∈ fs, IsName f.name ∧ DefaultOk print read f.defaultValue) :
    Closed (defaultsText print x fs) (Stmt.listTokens (defaultsS (numberE print) x fs)) := by
  by_cases he : (withDefault fs).isEmpty = true
  · exact Closed.of Closed.nil (by simp [defaultsText, he]) (by simp [defaultsS, he, Stmt.listTokens])
  · have l1 : Closed (str "\tconst auto ") [kw "const", kw "auto"] := Closed.lit _ (by decide +kernel)
    have l2 : Closed (str "response::Value values(response::Type::Map);\n\t\tresponse::Value entry;\n\n")
      (Stmt.listTokens (containerS "values" "Map")) := lit' 300 _ (by decide +kernel)
    have l3 : Closed (str "\n\t\treturn values;\n\t}();\n\n") [kw "return", .word (str "values"), p ";", p "}", p "(", p ")", p ";"] :=
      Closed.lit _ (by decide +kernel)
    have l4 : Closed (str "\t\tvalues.emplace_back(") [.word (str "values"), p ".", .word (str "emplace_back"), p "("] :=
      Closed.lit _ (by decide +kernel)
    have hb : Closed ((withDefault fs).flatMap (fun f =>
        defaultText print 0 f.defaultValue ++ str "\t\tvalues.emplace_back(\"" ++ f.name ++ str "\", std::move(entry));\n"))
        ((withDefault fs).flatMap fun f => Stmt.listTokens (defaultS (numberE print) f.defaultValue ++
          [.expr (.method (str "values") (str "emplace_back") none [.text f.name, moveE (str "entry")])])) := by
      refine closed_flatMap fun f hm => ?_
      obtain ⟨h1, h2⟩ := hf f (by simp only [withDefault, List.mem_filter] at hm; exact hm.1)
      refine Closed.of (((closed_default print read 0 _ h2).then l4).then (quoted_text h1 lit_move (Begins.lit (by decide)))) ?_ ?_
      · have e1 : str "\t\tvalues.emplace_back(\"" = str "\t\tvalues.emplace_back(" ++ str "\"" := by decide
        have e2 : str "\", std::move(entry));\n" = str "\"" ++ str ", std::move(entry));\n" := by decide
        simp only [e1, e2, List.append_assoc]
      · simp [listTokens_append, Stmt.listTokens, Stmt.tokens, Expr.tokens, Expr.listTokens, Expr.moreTokens, Path.tokens, path,
          templateTokens, moveE, word]
    have hfm : ∀ (l : List InputField) (g : InputField → List Stmt), Stmt.listTokens (l.flatMap g) = l.flatMap fun f => Stmt.listTokens (g f) := by
      intro l g
      induction l with
      | nil => rfl
      | cons a l ih => simp [listTokens_append, ih]
    refine Closed.of ((((l1.then hx).then l2).then hb).then l3) ?_ ?_
    · have e : str " = []()\n\t{\n\t\tresponse::Value values(response::Type::Map);\n\t\tresponse::Value entry;\n\n" =
        str " = []()\n\t{\n\t\t" ++ str "response::Value values(response::Type::Map);\n\t\tresponse::Value entry;\n\n" := by decide
      simp only [defaultsText, he, Bool.false_eq_true, if_false, e, List.append_assoc]
    · simp only [defaultsS, he, Bool.false_eq_true, if_false, Stmt.listTokens, Stmt.tokens, Expr.tokens, listTokens_append, hfm, if_true]
      simp [var, Expr.tokens, word, Path.tokens, Stmt.listTokens, Stmt.tokens]

/-! ## All of it -/

theorem flatMap_tokens {α : Type} (l : List α) (g : α → List Stmt) :
    Stmt.listTokens (l.flatMap g) = l.flatMap fun f => Stmt.listTokens (g f) := by
  induction l with
  | nil => rfl
  | cons a l ih => simp [listTokens_append, ih]

theorem closed_arguments (hn : IsNamespace ns q) (print : Double → Str) (read : Str → Double) {fs : List InputField}
    (h : FieldsOk print read fs) :
    Closed (argumentsText print ns fs) (Stmt.listTokens (argumentsS (numberE print) q fs)) := by
  have ha : TokenOk (str "params.arguments") (.member (str "params") (str "arguments")) :=
    ⟨Closed.lit _ (by decide +kernel), Closed.lit _ (by decide +kernel)⟩
  have hd : TokenOk (str "defaultArguments") (var "defaultArguments") :=
    ⟨Closed.lit _ (by decide +kernel), Closed.lit _ (by decide +kernel)⟩
  have h1 := closed_defaults print read (x := str "defaultArguments") (Closed.lit _ (by decide +kernel)) fs
    fun f hf => ⟨h.name f hf, h.default f hf⟩
  refine Closed.of (h1.then (closed_flatMap (g := fun f => Stmt.listTokens (declarationS q (str "arg") (.member (str "params") (str "arguments"))
    (var "defaultArguments") f)) fun f hf =>
    closed_declaration hn (h.type f hf).1 (h.type f hf).2 (h.name f hf) arg_name arg_word ha hd)) rfl ?_
  simp [argumentsS, listTokens_append, flatMap_tokens]

theorem closed_input (hn : IsNamespace ns q) (print : Double → Str) (read : Str → Double) {t : InputType} (ht : IsName t.type)
    (hk : cpp t.type ∉ keywords) (h : FieldsOk print read t.fields) :
    Closed (inputText print ns t) (inputF (numberE print) q t).tokens := by
  have ha : TokenOk (str "value") (var "value") := ⟨Closed.lit _ (by decide +kernel), Closed.lit _ (by decide +kernel)⟩
  have hd : TokenOk (str "defaultValue") (var "defaultValue") :=
    ⟨Closed.lit _ (by decide +kernel), Closed.lit _ (by decide +kernel)⟩
  have h1 := closed_defaults print read (x := str "defaultValue") (Closed.lit _ (by decide +kernel)) t.fields
    fun f hf => ⟨h.name f hf, h.default f hf⟩
  have h2 := closed_flatMap (g := fun f => Stmt.listTokens (declarationS q (str "value") (var "value") (var "defaultValue") f)) fun f hf =>
    closed_declaration hn (h.type f hf).1 (h.type f hf).2 (h.name f hf) value_name value_word ha hd
  have l1 : Closed (str "template <>\n") [kw "template", p "<", p ">"] := Closed.lit _ (by decide +kernel)
  have l2 : Closed (str " ") [] := Closed.lit _ (by decide +kernel)
  have w1 : Piece (str "ModifiedArgument") [.word (str "ModifiedArgument")] := Piece.word (isName_lit (by decide)) (by decide +kernel)
  have l3 : Closed (str ">::convert(const response::Value& value)\n{\n") [p ">", p "::", .word (str "convert"), p "(", kw "const",
    .word (str "response"), p "::", .word (str "Value"), p "&", .word (str "value"), p ")", p "{"] := Closed.lit _ (by decide +kernel)
  have l4 : Closed (if t.fields.isEmpty then [] else str "\n") [] := by
    split
    · exact Closed.nil
    · exact Closed.lit _ (by decide +kernel)
  have l5 : Closed (str "\treturn {\n") [kw "return", p "{"] := Closed.lit _ (by decide +kernel)
  have l6 : Closed (str "\n\t};\n}\n\n") [p "}", p ";", p "}"] := Closed.lit _ (by decide +kernel)
  have l7 : Closed (str "\t\tstd::move(") [.word (str "std"), p "::", .word (str "move"), p "("] := Closed.lit _ (by decide +kernel)
  have l8 : Closed (str ")") [p ")"] := Closed.lit _ (by decide +kernel)
  have hc : Closed (commas (t.fields.map fun f => str "\t\tstd::move(value" ++ capital f ++ str ")"))
      (Expr.listTokens (t.fields.map fun f => moveE (str "value" ++ capital f))) := by
    have hone : ∀ f ∈ t.fields, Closed (str "\t\tstd::move(value" ++ capital f ++ str ")") (moveE (str "value" ++ capital f)).tokens := by
      intro f hf
      refine Closed.of ((l7.thenP (Piece.word (prefixed_name (h.name f hf) value_name) (value_word (capital f)))).then l8
        (Begins.lit (by decide))) ?_ ?_
      · have e : str "\t\tstd::move(value" = str "\t\tstd::move(" ++ str "value" := by decide
        simp only [e, List.append_assoc]
      · simp [moveE, Expr.tokens, Expr.listTokens, Expr.moreTokens, Path.tokens, path, word]
    generalize t.fields = fs at hone
    induction fs with
    | nil => exact Closed.nil
    | cons f fs ih =>
      cases fs with
      | nil => simpa [commas, Expr.listTokens, Expr.moreTokens] using hone f (by simp)
      | cons g fs =>
        have := ih fun f hf => hone f (by simp at hf ⊢; right; exact hf)
        rw [List.map_cons, List.map_cons, commas_cons]
        refine Closed.of ((hone f (by simp)).then (lit_comma.then this)) rfl ?_
        simp [Expr.listTokens, Expr.moreTokens]
  refine Closed.of ((((((((((((l1.thenP (piece_type hn ht hk)).then l2 (Begins.lit (by decide))).thenP w1).thenP (piece_angle (piece_type hn ht hk)
    (start_type hn _)) ((Begins.lit (by decide)).append _)).then l3 (Begins.lit (by decide))).then h1).then h2).then l4).then l5).then hc).then l6)) ?_ ?_
  · have e1 : str " ModifiedArgument<" = str " " ++ str "ModifiedArgument" ++ str "<" := by decide
    simp only [inputText, e1, List.append_assoc]
  · simp only [inputF, Function.tokens, listTokens_append, flatMap_tokens, Stmt.listTokens, Stmt.tokens, Expr.tokens]
    simp [valueT, path, word, Path.tokens]

end Verif.GenCode
