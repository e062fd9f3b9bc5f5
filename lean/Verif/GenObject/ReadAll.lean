import Verif.GenObject.Read
import Verif.Cpp.ObjectUnique

/-!
# Reading the text of resolvers
-/
namespace Verif.GenObject
open Verif.Value Verif.Resp Verif.Text Verif.GenCode
open Verif.Gen (InputField ObjectType OutputField getTypeModifiers)
open Verif.Gen.Service (Types)
open Verif.GenText
open Verif.Cpp (Path path word Tok p kw Lexes commaTokens keywords)
open Verif.Cpp.Code (Expr Stmt Entry Constructor Method templateTokens ReadsClass)

variable {print : Double → Str} {read : Str → Double} {T : Types} {ns : Str} {q : Path} {introspection : Bool} {t : ObjectType}

/-- `std::future<service::ResolverResult> C::f(service::ResolverParams&& params) {` -/
theorem closed_head (h : IsName t.type ∧ cpp t.type ∉ keywords) {f : Str} (hf : Piece f [.word f]) :
    Closed (str "\nstd::future<service::ResolverResult> " ++ cpp t.type ++ str "::" ++ f ++
      str "(service::ResolverParams&& params)\n{\n")
      ((path "std" ["future"]).tokens ++ [p "<"] ++ (path "service" ["ResolverResult"]).tokens ++ [p ">", .word (cpp t.type), p "::", .word f, p "("] ++
      (path "service" ["ResolverParams"]).tokens ++ [p "&&", .word (str "params"), p ")", p "{"]) := by
  have l1 : Closed (str "\nstd::future<service::ResolverResult> ") ((path "std" ["future"]).tokens ++ [p "<"] ++
    (path "service" ["ResolverResult"]).tokens ++ [p ">"]) := Closed.lit _ (by decide +kernel)
  have l2 : Closed (str "::") [p "::"] := Closed.lit _ (by decide +kernel)
  have l3 : Closed (str "(service::ResolverParams&& params)\n{\n") ([p "("] ++ (path "service" ["ResolverParams"]).tokens ++
    [p "&&", .word (str "params"), p ")", p "{"]) := Closed.lit _ (by decide +kernel)
  refine Closed.of ((((l1.thenP (piece_class h)).then l2 (Begins.lit (by decide))).thenP hf).then l3 (Begins.lit (by decide))) rfl ?_
  simp

/-- `service::ModifiedResult<X>::convert<...>(` -/
theorem closed_convert {f : OutputField} (h : IsName f.type ∧ cpp f.type ∉ keywords) :
    Closed (str "service::ModifiedResult<" ++ resultText f ++ str ">::convert" ++ getTypeModifiers (str "service::") f.modifiers ++ str "(")
      ((path "service" ["ModifiedResult"]).tokens ++ [p "<"] ++ (resultPath f).tokens ++ [p ">", p "::", .word (str "convert")] ++
        templateTokens (f.modifiers.map modPath) ++ [p "("]) := by
  have w : Piece (str "service::ModifiedResult") (path "service" ["ModifiedResult"]).tokens := by
    have := piece_known (a := "service") (bs := ["ModifiedResult"]) (known_ok (by decide) (by decide) (by decide +kernel) (by decide +kernel))
    have e : str "service::ModifiedResult" = str "service" ++ (str "::" ++ str "ModifiedResult") := by decide
    simpa [e] using this
  have l : Closed (str ">::") [p ">", p "::"] := Closed.lit _ (by decide +kernel)
  have w2 : Piece (str "convert") [.word (str "convert")] := Piece.word (isName_lit (by decide)) (by decide +kernel)
  have hm := closed_modifiers f.modifiers
  refine Closed.of ((((w.thenP (piece_angle (piece_result h).1 (piece_result h).2) ((Begins.lit (by decide)).append _)).then l
    (Begins.lit (by decide))).thenP w2).then hm.1 hm.2) ?_ ?_
  · have e1 : str "service::ModifiedResult<" = str "service::ModifiedResult" ++ str "<" := by decide
    have e2 : str ">::convert" = str ">::" ++ str "convert" := by decide
    simp only [e1, e2, List.append_assoc]
  · simp

theorem more_moves (fs : List InputField) (h : ∀ a ∈ fs, IsName a.name) :
    Closed (fs.flatMap fun a => str ", std::move(arg" ++ GenCode.capital a ++ str ")") (Expr.moreTokens ((fs.map argVar).map moveE)) := by
  have l1 : Closed (str ", std::move(") [p ",", .word (str "std"), p "::", .word (str "move"), p "("] := Closed.lit _ (by decide +kernel)
  have l2 : Closed (str ")") [p ")"] := Closed.lit _ (by decide +kernel)
  induction fs with
  | nil => exact Closed.nil
  | cons a fs ih =>
    have w := Piece.word (prefixed_name (h a (by simp)) arg_name) (arg_word (GenCode.capital a))
    refine Closed.of (((l1.thenP w).then l2 (Begins.lit (by decide))).then (ih fun b hb => h b (by simp [hb]))) ?_ ?_
    · have e : str ", std::move(arg" = str ", std::move(" ++ str "arg" := by decide
      simp only [List.flatMap_cons, e, List.append_assoc]
    · simp [Expr.moreTokens, moveE, Expr.tokens, Expr.listTokens, Path.tokens, path, word, argVar]

theorem closed_resolver (hn : IsNamespace ns q) (h : WrittenOk print read t) {f : OutputField} (hf : f ∈ t.fields) :
    Closed (resolverText print ns t f) (resolverM (numberE print) q t f).tokens := by
  have h1 := closed_head h.type (piece_resolver (h.name f hf))
  have h2 := closed_arguments hn print read (h.arguments f hf)
  have l1 : Closed (str "\tstd::unique_lock resolverLock(_resolverMutex);\n\tauto directives = std::move(params.fieldDirectives);\n")
    ((path "std" ["unique_lock"]).tokens ++ [.word (str "resolverLock"), p "(", .word (str "_resolverMutex"), p ")", p ";"] ++
      [kw "auto", .word (str "directives"), p "=", .word (str "std"), p "::", .word (str "move"), p "(", .word (str "params"), p ".",
        .word (str "fieldDirectives"), p ")", p ";"]) := lit' 300 _ (by decide +kernel)
  have l2 : Closed (str "\tauto result = ") [kw "auto", .word (str "result"), p "="] := Closed.lit _ (by decide +kernel)
  have h3 := piece_accessor (h.name f hf) (h.accessor f hf)
  have l3 : Closed (str "(service::FieldParams(std::move(params), std::move(directives))")
    ([p "(", .word (str "service"), p "::", .word (str "FieldParams"), p "(", .word (str "std"), p "::", .word (str "move"), p "(",
      .word (str "params"), p ")", p ",", .word (str "std"), p "::", .word (str "move"), p "(",
      .word (str "directives"), p ")", p ")"]) := Closed.lit _ (by decide +kernel)
  have h4 := more_moves f.arguments (h.arguments f hf).name
  have l4 : Closed (str ");\n\tresolverLock.unlock();\n\n\treturn ") [p ")", p ";", .word (str "resolverLock"), p ".",
    .word (str "unlock"), p "(", p ")", p ";", kw "return"] := Closed.lit _ (by decide +kernel)
  have h5 := closed_convert (h.result f hf)
  have l5 : Closed (str "std::move(result), std::move(params));\n}\n") [.word (str "std"), p "::", .word (str "move"), p "(",
    .word (str "result"), p ")", p ",", .word (str "std"), p "::", .word (str "move"), p "(",
    .word (str "params"), p ")", p ")", p ";", p "}"] := Closed.lit _ (by decide +kernel)
  refine Closed.of ((((((((h1.then h2).then l1).then l2).thenP h3).then l3 (Begins.lit (by decide))).then h4).then l4).then h5 |>.then l5) ?_ ?_
  · have e1 : str "\tstd::unique_lock resolverLock(_resolverMutex);\n\tauto directives = std::move(params.fieldDirectives);\n\tauto result = " =
      str "\tstd::unique_lock resolverLock(_resolverMutex);\n\tauto directives = std::move(params.fieldDirectives);\n" ++ str "\tauto result = " := by decide +kernel
    have e2 : str ");\n\tresolverLock.unlock();\n\n\treturn service::ModifiedResult<" =
      str ");\n\tresolverLock.unlock();\n\n\treturn " ++ str "service::ModifiedResult<" := by decide
    have e3 : str "(std::move(result), std::move(params));\n}\n" = str "(" ++ str "std::move(result), std::move(params));\n}\n" := by decide
    simp only [resolverText, e1, e2, e3, List.append_assoc]
  · simp only [resolverM, Method.tokens, listTokens_append, lastS, Stmt.listTokens, Stmt.tokens, accessorE, convertE, Expr.tokens,
      Expr.listTokens, Expr.moreTokens, moveE, var]
    simp [Path.tokens, path, word, templateTokens]

theorem closed_typename (h : IsName t.type ∧ cpp t.type ∉ keywords) : Closed (typenameText t) (typenameM t).tokens := by
  have h1 := closed_head h (f := str "resolve_typename") (Piece.word (isName_lit (by decide)) (by decide +kernel))
  have l1 : Closed (str "\treturn service::ModifiedResult<response::StringType>::convert(response::StringType{ ")
    [kw "return", .word (str "service"), p "::", .word (str "ModifiedResult"), p "<", .word (str "response"), p "::", .word (str "StringType"),
      p ">", p "::", .word (str "convert"), p "(", .word (str "response"), p "::", .word (str "StringType"), p "{"] :=
    Closed.lit _ (by decide +kernel)
  have h2 := piece_gqlPlain (s := t.type) (gql_name h.1)
  have l2 : Closed (str " }, std::move(params));\n}\n") [p "}", p ",", .word (str "std"), p "::", .word (str "move"), p "(",
    .word (str "params"), p ")", p ")", p ";", p "}"] := Closed.lit _ (by decide +kernel)
  refine Closed.of ((h1.then l1).thenP h2 |>.then l2 (Begins.lit (by decide))) ?_ ?_
  · have e1 : str "resolve_typename(service::ResolverParams&& params)\n{\n\treturn service::ModifiedResult<response::StringType>::convert(response::StringType{ R\"gql(" =
      str "resolve_typename" ++ str "(service::ResolverParams&& params)\n{\n" ++
      str "\treturn service::ModifiedResult<response::StringType>::convert(response::StringType{ " ++ str "R\"gql(" := by decide +kernel
    have e2 : str ")gql\" }, std::move(params));\n}\n" = str ")gql\"" ++ str " }, std::move(params));\n}\n" := by decide
    simp only [typenameText, e1, e2, List.append_assoc]
  · simp only [typenameM, Method.tokens, Stmt.listTokens, Stmt.tokens, convertE, Expr.tokens, Expr.listTokens, Expr.moreTokens, moveE]
    simp [Path.tokens, path, word, templateTokens]

theorem reads_object (hn : IsNamespace ns q) (h : WrittenOk print read t) :
    ReadsClass (objectText print ns introspection t) (constructorK introspection t) (methods (numberE print) q t) := by
  refine Closed.lexes (Closed.of (((closed_constructor h).then (closed_flatMap (g := fun f => (resolverM (numberE print) q t f).tokens) fun f hf => closed_resolver hn h hf)).then
    (closed_typename h.type)) rfl ?_)
  simp [methods, List.flatMap_map]

end Verif.GenObject
