import Verif.GenStub.Spec
import Verif.GenClass.Read
import Verif.GenObject.ReadAll
import Verif.Cpp.StubUnique

/-!
# Reading the text of stubs and of `Operations`
-/
namespace Verif.GenStub
open Verif.Value Verif.Resp Verif.Text Verif.GenText Verif.GenTypes
open Verif.GenCode (FieldsOk piece_known known_ok isName_lit numberE lit')
open Verif.GenObject (WrittenOk capital piece_accessor piece_class resolverM typenameM constructorK closed_resolver closed_typename
  closed_constructor)
open Verif.GenClass (composite outPath outType accessorName getResolverCppType_eq piece_out piece_outLeaf start_out TypePiece.then)
open Verif.Gen (InputField ObjectType OutputField OperationType)
open Verif.Cpp (Path path word Tok p kw Lexes keywords chr commaTokens)
open Verif.Cpp.Code (CType Member Stub Definition Pair Move OperationsDecl OperationsDef parameterTokens ReadsStubs ReadsOperationsDecl
  ReadsOperationsDef)

variable {print : Double → Str} {read : Str → Double} {ns : Str} {q : Path} {t : ObjectType} {ops : List OperationType}

/-! ## The syntax which is meant -/

def stubD (t : ObjectType) (f : OutputField) : Stub where
  result := outType (composite f) (outPath f) f.modifiers
  c := cpp t.type
  f := accessorName f
  params := f.arguments.map fun a => argumentType (leafPath a) a.modifiers
  message := message t f

def definitions (number : Double → Cpp.Code.Expr) (ns : Path) (stubs : Bool) (t : ObjectType) : List Definition :=
  t.fields.flatMap (fun f => (if stubs then [.stub (stubD t f)] else []) ++ [.resolver (resolverM number ns t f)]) ++
  [.resolver (typenameM t)]

def rootType (o : OperationType) : CType := .shared (.name ⟨str "object", [cpp o.type]⟩)
def paramD (o : OperationType) : Member := ⟨rootType o, o.operation⟩
def memberD (o : OperationType) : Member := ⟨rootType o, str "_" ++ o.operation⟩
def declD (os : List OperationType) : OperationsDecl := ⟨os.map paramD, os.map memberD⟩
def defD (os : List OperationType) : OperationsDef :=
  ⟨os.map paramD, os.map fun o => ⟨o.operation, o.operation⟩, os.map fun o => ⟨str "_" ++ o.operation, o.operation⟩⟩

/-! ## Stubs -/

theorem noClose_of_not_mem {c : Byte} {cl s : Str} (h : c ∉ s) : Cpp.NoClose (c :: cl) s := by
  intro a b e
  exact h (by rw [e]; simp)

theorem name_not_mem {s : Str} {c : Byte} (hc : nameCont c = false) (h : IsName s) : c ∉ s := by
  obtain ⟨x, xs, rfl, h1, h2⟩ := h
  intro hm
  rcases List.mem_cons.1 hm with rfl | hm
  · rw [show nameCont c = true by simp [nameCont, h1]] at hc; cases hc
  · rw [h2 c hm] at hc; cases hc

theorem closed_parameters {as : List InputField} (h : FieldsOk print read as) {tail : Str} {b : List Tok} (ht : Closed tail b) :
    Closed (str "&&" ++ (as.flatMap parameterText ++ (str ")" ++ tail)))
      ([p "&&"] ++ ((as.map fun a => argumentType (leafPath a) a.modifiers).flatMap parameterTokens ++ (p ")" :: b))) := by
  have hty : ∀ a ∈ as, IsName a.type ∧ cpp a.type ∉ keywords := h.type
  clear h
  induction as with
  | nil =>
    have l : Closed (str "&&)") [p "&&", p ")"] := Closed.lit _ (by decide +kernel)
    exact Closed.of (l.then ht) rfl rfl
  | cons a as ih =>
    have ih1 := ih fun x hx => hty x (List.mem_cons_of_mem _ hx)
    have ha := hty a List.mem_cons_self
    have l1 : Closed (str "&&, ") [p "&&", p ","] := Closed.lit _ (by decide +kernel)
    have h1 := GenTypes.Closed.thenT l1 (piece_nested (piece_leaf ha).1 (piece_leaf ha).2 a.modifiers)
    have h2 := TypePiece.then (c := chr '&') (t := str "&" ++ (as.flatMap parameterText ++ (str ")" ++ tail))) h1 (.inr (.inr rfl)) ih1
    refine Closed.of h2 ?_ ?_
    · have e1 : str "&&, " = str "&&" ++ str ", " := by decide
      have e2 : ∀ x, chr '&' :: (str "&" ++ x) = str "&&" ++ x := fun x => rfl
      simp only [List.flatMap_cons, parameterText, getInputCppType_eq, e1, e2, List.append_assoc]
    · simp [parameterTokens]

theorem message_ok {f : OutputField} (h : WrittenOk print read t) (hf : f ∈ t.fields) :
    Cpp.NoClose (str ")" ++ str "ex" ++ str "\"") (message t f) := by
  refine noClose_of_not_mem (c := chr ')') (cl := str "ex\"") ?_
  have h1 := name_not_mem (c := chr ')') (by decide) (cpp_name h.type.1)
  have h2 := name_not_mem (c := chr ')') (by decide) (GenObject.capital_name (h.name f hf))
  have h3 : chr ')' ∉ f.accessor := by
    rcases h.accessor f hf with e | e <;> rw [e] <;> decide
  simp only [message, List.mem_append, not_or]
  exact ⟨⟨⟨h1, by decide⟩, h3, h2⟩, by decide⟩

theorem closed_stub (h : WrittenOk print read t) {f : OutputField} (hf : f ∈ t.fields) : Closed (stubText t f) (stubD t f).tokens := by
  have hty := h.result f hf
  have hr : Piece (str "\nservice::FieldResult") (path "service" ["FieldResult"]).tokens := by
    have l : Closed (str "\n") [] := Closed.lit _ (by decide +kernel)
    have k := piece_known (a := "service") (bs := ["FieldResult"]) (known_ok (by decide) (by decide) (by decide +kernel) (by decide +kernel))
    refine Piece.of (l.thenP k) ?_ rfl
    decide
  have h1 := GenTypes.Piece.angle hr (piece_out (piece_outLeaf hty).1 (piece_outLeaf hty).2 (composite f) f.modifiers)
    (start_out (piece_outLeaf hty).2 _ _)
  have l1 : Closed (chr '>' :: str " ") [p ">"] := Closed.lit _ (by decide +kernel)
  have l2 : Closed (str "::") [p "::"] := Closed.lit _ (by decide +kernel)
  have l3 : Closed (str "(service::") [p "(", .word (str "service"), p "::"] := Closed.lit _ (by decide +kernel)
  have w3 : Piece (str "FieldParams") [.word (str "FieldParams")] := Piece.word (isName_lit (by decide)) (by decide +kernel)
  have l4 : Closed (str " const\n{\n\tthrow std::runtime_error(") ([kw "const", p "{", kw "throw"] ++ (path "std" ["runtime_error"]).tokens ++
    [p "("]) := Closed.lit _ (by decide +kernel)
  have l5 : Closed (str ");\n}\n") [p ")", p ";", p "}"] := Closed.lit _ (by decide +kernel)
  have hm : Piece (str "R\"" ++ (str "ex" ++ str "(" ++ message t f ++ (str ")" ++ str "ex" ++ str "\""))) [.text (message t f) false] := fun r b hs hr => by
    have := Cpp.Lexes.rawPlain (d := str "ex") (s := message t f) (by decide) (by decide) (message_ok h hf) hs hr
    simpa only [List.append_assoc, List.cons_append, List.nil_append] using this
  have hp := closed_parameters (h.arguments f hf) ((l4.thenP hm).then l5 (Begins.lit (by decide)))
  have h4 := (((TypePiece.then h1 (.inr (.inl rfl)) l1).thenP (piece_class h.type)).then l2 (Begins.lit (by decide))).thenP
    (piece_accessor (h.name f hf) (h.accessor f hf)) |>.then ((l3.thenP w3).then hp ((Begins.lit (by decide)).append _)) (by
    simp only [List.append_assoc]
    exact (Begins.lit (by decide)).append _)
  refine Closed.of h4 ?_ ?_
  · have e1 : str "\nservice::FieldResult<" = str "\nservice::FieldResult" ++ str "<" := by decide
    have e2 : chr '>' :: str " " = str "> " := by decide
    have e3 : str "(service::FieldParams&&" = str "(service::" ++ (str "FieldParams" ++ str "&&") := by decide
    have e4 : str ") const\n{\n\tthrow std::runtime_error(R\"ex(" = str ")" ++ (str " const\n{\n\tthrow std::runtime_error(" ++
      (str "R\"" ++ (str "ex" ++ str "("))) := by decide +kernel
    have e5 : str " is not implemented)ex\");\n}\n" = str " is not implemented" ++ (str ")" ++ (str "ex" ++ (str "\"" ++ str ");\n}\n"))) := by
      decide +kernel
    simp only [stubText, message, getResolverCppType_eq, e1, e2, e3, e4, e5, List.append_assoc]
  · unfold Stub.tokens
    simp only [stubD, accessorName, path, Path.tokens, List.map_cons, List.map_nil, List.flatMap_cons, List.flatMap_nil, List.append_assoc,
      List.cons_append, List.nil_append, List.append_nil]

theorem closed_stubs (hn : IsNamespace ns q) (h : WrittenOk print read t) (introspection stubs : Bool) :
    Closed (objectText print ns introspection stubs t)
      ((constructorK introspection t).tokens ++ (definitions (numberE print) q stubs t).flatMap Definition.tokens) := by
  have hb : Closed (t.fields.flatMap fun f => (if stubs then stubText t f else []) ++ GenObject.resolverText print ns t f)
      (t.fields.flatMap fun f => ((if stubs then [Definition.stub (stubD t f)] else []) ++
        [Definition.resolver (resolverM (numberE print) q t f)]).flatMap Definition.tokens) := by
    refine closed_flatMap fun f hf => ?_
    have h1 : Closed (if stubs then stubText t f else []) (if stubs then (stubD t f).tokens else []) := by
      cases stubs
      · exact Closed.nil
      · exact closed_stub h hf
    refine Closed.of (h1.then (closed_resolver hn h hf)) rfl ?_
    cases stubs <;> simp [Definition.tokens]
  refine Closed.of (((closed_constructor h).then hb).then (closed_typename h.type)) rfl ?_
  simp [definitions, List.flatMap_assoc, Definition.tokens]

theorem reads_stubs (hn : IsNamespace ns q) (h : WrittenOk print read t) (introspection stubs : Bool) :
    ReadsStubs (objectText print ns introspection stubs t) (constructorK introspection t) (definitions (numberE print) q stubs t) :=
  (closed_stubs hn h introspection stubs).lexes

/-! ## `Operations` -/

theorem kind_name {s : Str} (h : s ∈ kinds) : IsName s ∧ s ∉ keywords ∧ str "_" ++ s ∉ keywords ∧ GenCode.cString s = s := by
  simp only [kinds, List.mem_cons, List.not_mem_nil, or_false] at h
  rcases h with rfl | rfl | rfl <;> exact ⟨isName_lit (by decide), by decide +kernel, by decide +kernel, by decide⟩

theorem piece_parameter {o : OperationType} (h : IsName o.type ∧ cpp o.type ∉ keywords) {x : Str} (hx : IsName x ∧ x ∉ keywords) :
    Piece (str "std::shared_ptr<object::" ++ cpp o.type ++ str "> " ++ x) (Member.parameterTokens ⟨rootType o, x⟩) := by
  have k := piece_known (a := "std") (bs := ["shared_ptr"]) (known_ok (by decide) (by decide) (by decide +kernel) (by decide +kernel))
  have l1 : Closed (str "object::") [.word (str "object"), p "::"] := Closed.lit _ (by decide +kernel)
  have h1 := GenTypes.Piece.angle k (TypePiece.of (l1.thenP (Piece.word (cpp_name h.1) h.2))) ⟨_, _, rfl, by decide⟩
  have l2 : Closed (chr '>' :: str " ") [p ">"] := Closed.lit _ (by decide +kernel)
  have h2 := (TypePiece.then h1 (.inr (.inl rfl)) l2).thenP (Piece.word hx.1 hx.2)
  refine Piece.of h2 ?_ ?_
  · have e1 : str "std::shared_ptr<object::" = str "std" ++ (str "::" ++ (str "shared_ptr" ++ (str "<" ++ str "object::"))) := by decide
    have e2 : chr '>' :: str " " = str "> " := by decide
    simp only [e1, e2, List.append_assoc, List.map_cons, List.map_nil, List.flatMap_cons, List.flatMap_nil, List.append_nil]
  · simp [Member.parameterTokens, rootType, CType.tokens, path, Path.tokens]

theorem piece_separated {α : Type} {sep : Str} (hs : Closed sep [p ","]) (hb : Begins sep) {text : α → Str} {g : α → List Tok} {os : List α}
    (h : ∀ o ∈ os, Piece (text o) (g o)) : Piece (separated sep text os) (commaTokens (os.map g)) := by
  have key : ∀ (os : List α) (o : α), (∀ x ∈ o :: os, Piece (text x) (g x)) →
      Piece (text o ++ os.flatMap fun o => sep ++ text o) (commaTokens ((o :: os).map g)) := by
    intro os
    induction os with
    | nil => intro o h; exact Piece.of (h o (by simp)) (by simp) rfl
    | cons o' os ih =>
      intro o h
      have h1 := ((h o (by simp)).then hs hb).thenP (ih o' fun x hx => h x (List.mem_cons_of_mem _ hx))
      refine Piece.of h1 ?_ ?_
      · simp only [List.flatMap_cons, List.append_assoc]
      · simp [commaTokens]
  cases os with
  | nil => exact fun r b _ hr => hr
  | cons o os => exact key os o h

theorem reads_decl (h : OperationsWritten ops) : ReadsOperationsDecl (declText ops) (declD ops) := by
  have l1 : Closed (str "class Operations\n\t: public service::Request\n{\npublic:\n\texplicit Operations(")
    ([kw "class", .word (str "Operations"), p ":", kw "public"] ++ (path "service" ["Request"]).tokens ++
      [p "{", kw "public", p ":", kw "explicit", .word (str "Operations"), p "("]) := Closed.lit _ (by decide +kernel)
  have hs : Closed (str ", ") [p ","] := Closed.lit _ (by decide +kernel)
  have h1 := piece_separated (text := parameter) (g := fun o => (paramD o).parameterTokens) hs (Begins.lit (by decide)) fun o ho =>
    piece_parameter (h.type o ho) ⟨(kind_name (h.kind o ho)).1, (kind_name (h.kind o ho)).2.1⟩
  have l2 : Closed (str ");\n\nprivate:\n") [p ")", p ";", kw "private", p ":"] := Closed.lit _ (by decide +kernel)
  have h2 : Closed (ops.flatMap fun o => str "\tstd::shared_ptr<object::" ++ cpp o.type ++ str "> _" ++ o.operation ++ str ";\n")
      (ops.flatMap fun o => (memberD o).tokens) := by
    refine closed_flatMap fun o ho => ?_
    have k := kind_name (h.kind o ho)
    have l : Closed (str "\t") [] := Closed.lit _ (by decide +kernel)
    have l' : Closed (str ";\n") [p ";"] := Closed.lit _ (by decide +kernel)
    have hx : IsName (str "_" ++ o.operation) := by
      obtain ⟨c, cs, e, h1, h2⟩ := k.1
      exact ⟨chr '_', o.operation, rfl, by decide, by
        rw [e]; intro b hb
        rcases List.mem_cons.1 hb with rfl | hb
        · simp [nameCont, h1]
        · exact h2 b hb⟩
    refine Closed.of ((l.thenP (piece_parameter (h.type o ho) ⟨hx, k.2.2.1⟩)).then l' (Begins.lit (by decide))) ?_ ?_
    · have e1 : str "\tstd::shared_ptr<object::" = str "\t" ++ str "std::shared_ptr<object::" := by decide
      have e2 : str "> _" = str "> " ++ str "_" := by decide
      simp only [e1, e2, List.append_assoc]
    · simp [Member.parameterTokens, Member.tokens, memberD]
  have l3 : Closed (str "};\n\n") [p "}", p ";"] := Closed.lit _ (by decide +kernel)
  refine Closed.lexes (Closed.of (((l1.thenP h1).then l2 (Begins.lit (by decide))).then h2 |>.then l3) ?_ ?_)
  · simp only [declText, List.append_assoc]
  · simp only [OperationsDecl.tokens, declD, List.map_map, List.flatMap_map, List.append_assoc]
    rfl

theorem reads_def (h : OperationsWritten ops) : ReadsOperationsDef (defText ops) (defD ops) := by
  have l1 : Closed (str "\nOperations::Operations(") [.word (str "Operations"), p "::", .word (str "Operations"), p "("] :=
    Closed.lit _ (by decide +kernel)
  have hs : Closed (str ", ") [p ","] := Closed.lit _ (by decide +kernel)
  have hs' : Closed (str ",\n") [p ","] := Closed.lit _ (by decide +kernel)
  have h1 := piece_separated (text := parameter) (g := fun o => (paramD o).parameterTokens) hs (Begins.lit (by decide)) fun o ho =>
    piece_parameter (h.type o ho) ⟨(kind_name (h.kind o ho)).1, (kind_name (h.kind o ho)).2.1⟩
  have l2 : Closed (str ")\n\t: service::Request({\n") ([p ")", p ":"] ++ (path "service" ["Request"]).tokens ++ [p "(", p "{"]) :=
    Closed.lit _ (by decide +kernel)
  have h2 := piece_separated (text := pairText) (g := fun o : OperationType => (Pair.mk o.operation o.operation).tokens) hs'
    (Begins.lit (by decide)) (os := ops) fun o ho => by
      have k := kind_name (h.kind o ho)
      have m1 : Closed (str "\t\t{ ") [p "{"] := Closed.lit _ (by decide +kernel)
      have m2 : Closed (str ", ") [p ","] := Closed.lit _ (by decide +kernel)
      have m3 : Closed (str " }") [p "}"] := Closed.lit _ (by decide +kernel)
      refine Piece.of ((((m1.thenP (piece_quoted k.1)).then m2 (Begins.lit (by decide))).thenP (Piece.word k.1 k.2.1)).then m3
        (Begins.lit (by decide))).piece ?_ ?_
      · have e1 : str "\t\t{ \"" = str "\t\t{ " ++ str "\"" := by decide
        have e2 : str "\", " = str "\"" ++ str ", " := by decide
        simp only [pairText, e1, e2, List.append_assoc]
      · simp [Pair.tokens]
  have l3 : Closed (str "\n\t}, GetSchema())\n") [p "}", p ",", .word (str "GetSchema"), p "(", p ")", p ")"] :=
    Closed.lit _ (by decide +kernel)
  have h3 : Closed (ops.flatMap fun o => str "\t, _" ++ o.operation ++ str "(std::move(" ++ o.operation ++ str "))\n")
      (ops.flatMap fun o => (Move.mk (str "_" ++ o.operation) o.operation).tokens) := by
    refine closed_flatMap fun o ho => ?_
    have k := kind_name (h.kind o ho)
    have hx : IsName (str "_" ++ o.operation) := by
      obtain ⟨c, cs, e, h1, h2⟩ := k.1
      exact ⟨chr '_', o.operation, rfl, by decide, by
        rw [e]; intro b hb
        rcases List.mem_cons.1 hb with rfl | hb
        · simp [nameCont, h1]
        · exact h2 b hb⟩
    have m1 : Closed (str "\t, ") [p ","] := Closed.lit _ (by decide +kernel)
    have m2 : Closed (str "(std::move(") ([p "("] ++ (path "std" ["move"]).tokens ++ [p "("]) := Closed.lit _ (by decide +kernel)
    have m3 : Closed (str "))\n") [p ")", p ")"] := Closed.lit _ (by decide +kernel)
    refine Closed.of ((((m1.thenP (Piece.word hx k.2.2.1)).then m2 (Begins.lit (by decide))).thenP (Piece.word k.1 k.2.1)).then m3
      (Begins.lit (by decide))) ?_ ?_
    · have e1 : str "\t, _" = str "\t, " ++ str "_" := by decide
      simp only [e1, List.append_assoc]
    · simp [Move.tokens]
  have l4 : Closed (str "{\n}\n\n") [p "{", p "}"] := Closed.lit _ (by decide +kernel)
  refine Closed.lexes (Closed.of (((((l1.thenP h1).then l2 (Begins.lit (by decide))).thenP h2).then l3 (Begins.lit (by decide))).then h3 |>.then l4) ?_ ?_)
  · simp only [defText, List.append_assoc]
  · simp only [OperationsDef.tokens, defD, List.map_map, List.flatMap_map, List.append_assoc]
    rfl

end Verif.GenStub
