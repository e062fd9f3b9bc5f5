import Verif.GenClass.Spec
import Verif.GenTypes.Read
import Verif.GenObject.Read
import Verif.Cpp.ClassUnique

/-!
# Reading the declarations of classes
-/
namespace Verif.GenClass
open Verif.Value Verif.Resp Verif.Text Verif.GenText Verif.GenTypes
open Verif.GenCode (FieldsOk builtinPath valueT piece_known known_ok piece_builtin start_builtin piece_response isName_lit)
open Verif.GenObject (WrittenOk capital resolver piece_resolver piece_accessor resultPath)
open Verif.Gen (InputField InterfaceType ObjectType OutputField getResolverCppType outputStep closing Writer)
open Verif.Cpp (Path path word Tok p kw Lexes keywords chr)
open Verif.Cpp.Code (CType Member Accessor Ending ClassDecl ClassHeader resolverTokens)
open Verif.Modifiers (Mod)

variable {print : Double → Str} {read : Str → Double} {is : List InterfaceType} {os : List ObjectType}

/-! ## The syntax which is meant -/

/-- The name of the type of a field in a declaration. -/
def outPath (f : OutputField) : Path :=
  match f.fieldType with
  | .builtin => builtinPath f.type
  | .scalar => valueT
  | .enum => word (cpp f.type)
  | .object => if f.interfaceField then ⟨str "object", [cpp f.type]⟩ else word (cpp f.type)
  | .union => path "service" ["Object"]
  | .interface => path "service" ["Object"]

def outType (composite : Bool) (u : Path) : List Mod → CType
  | [] => if composite then .shared (.name u) else .name u
  | .nullable :: ms => if composite ∧ ms = [] then .shared (.name u) else .optional (outType composite u ms)
  | .list :: ms => .vector (outType composite u ms)

def paramD (a : InputField) : Member := ⟨argumentType (leafPath a) a.modifiers, cpp a.name ++ str "Arg"⟩

def ending (abstract : Bool) (f : OutputField) : Ending :=
  if f.interfaceField || abstract then .pure else if f.inheritedField then .override else .plain

def accessorD (abstract : Bool) (f : OutputField) : Accessor :=
  ⟨outType (composite f) (outPath f) f.modifiers, accessorName f, f.arguments.map paramD, ending abstract f⟩

def interfaceD (abstract : Bool) (t : InterfaceType) : ClassHeader := .interface (cpp t.type) (t.fields.map (accessorD abstract))

def classD (abstract introspection : Bool) (t : ObjectType) : ClassDecl where
  name := cpp t.type
  bases := t.interfaces.map cpp
  accessors := (declared abstract t).map (accessorD abstract)
  resolvers := if t.fields = [] then [] else t.fields.map resolver ++ [str "resolve_typename"] ++
    if introspection then [str "resolve_schema", str "resolve_type"] else []
  schema := !t.fields.isEmpty && introspection

def headerD (abstract : Bool) (query : Option Str) (is : List InterfaceType) (os : List ObjectType) : List ClassHeader :=
  os.map (fun t => .forwardClass (cpp t.type)) ++ (if is.length > 1 then is.map (fun t => .forwardStruct (cpp t.type)) else []) ++
  is.map (interfaceD abstract) ++ os.map fun t => .object (classD abstract (query = some t.type) t)

/-! ## Types -/

/-- `getResolverCppType`, from the outside to the inside. -/
def outNested (composite : Bool) (leaf : Str) : List Mod → Str
  | [] => if composite then str "std::shared_ptr<" ++ leaf ++ str ">" else leaf
  | .nullable :: ms => if composite ∧ ms = [] then str "std::shared_ptr<" ++ leaf ++ str ">"
      else str "std::optional<" ++ outNested composite leaf ms ++ str ">"
  | .list :: ms => str "std::vector<" ++ outNested composite leaf ms ++ str ">"

def finish (composite : Bool) (w : Writer) : Writer :=
  if composite then w.open (str "std::shared_ptr<") else if w.nonNull then w else w.open (str "std::optional<")

theorem outNested_eq (composite : Bool) (leaf : Str) (ms : List Mod) (w : Writer) :
    (finish composite (ms.foldl outputStep w)).text ++ leaf ++ closing (str ">") (finish composite (ms.foldl outputStep w)).count =
      w.text ++ (if w.nonNull then outNested composite leaf ms else outNested composite leaf (.nullable :: ms)) ++
        closing (str ">") w.count := by
  induction ms generalizing w with
  | nil =>
    cases composite <;> cases hw : w.nonNull <;> simp [finish, Gen.Writer.open, closing, outNested, hw]
  | cons m ms ih =>
    rw [List.foldl_cons, ih]
    cases m <;> cases composite <;> cases hw : w.nonNull <;> cases ms <;>
      simp [outputStep, Gen.Writer.open, closing, outNested, hw]

theorem getResolverCppType_eq (composite : Bool) (leaf : Str) (ms : List Mod) :
    getResolverCppType composite leaf ms = outNested composite leaf ms := by
  have := outNested_eq composite leaf ms {}
  simpa [getResolverCppType, finish, closing] using this

theorem start_out {leaf : Str} (h : ∃ c r, leaf = c :: r ∧ nameStart c = true) (composite : Bool) (ms : List Mod) :
    ∃ c r, outNested composite leaf ms = c :: r ∧ nameStart c = true := by
  match ms with
  | [] =>
    cases composite
    · exact h
    · exact ⟨_, _, rfl, by decide⟩
  | .nullable :: ms =>
    unfold outNested
    split <;> exact ⟨_, _, rfl, by decide⟩
  | .list :: ms => exact ⟨_, _, rfl, by decide⟩

theorem piece_out {leaf : Str} {l : Path} (h : Piece leaf l.tokens) (hs : ∃ c r, leaf = c :: r ∧ nameStart c = true)
    (composite : Bool) (ms : List Mod) : TypePiece (outNested composite leaf ms) (outType composite l ms).tokens := by
  have key : ∀ b : String, (match str b with | [] => false | c :: cs => nameStart c && cs.all nameCont) = true → str b ∉ keywords →
      Piece (str "std::" ++ str b) (path "std" [b]).tokens := by
    intro b h1 h2
    have := piece_known (a := "std") (bs := [b]) (known_ok (by decide) h1 (by decide +kernel) h2)
    have e : str "std::" = str "std" ++ str "::" := by decide
    simpa [e] using this
  have hshared : TypePiece (str "std::shared_ptr<" ++ leaf ++ str ">") (CType.shared (.name l)).tokens := by
    have := (GenTypes.Piece.angle (key "shared_ptr" (by decide) (by decide +kernel)) (TypePiece.of h) hs).close
    have e : str "std::shared_ptr<" = str "std::" ++ str "shared_ptr" ++ str "<" := by decide
    simpa only [CType.tokens, e] using this
  induction ms with
  | nil =>
    cases composite
    · exact TypePiece.of h
    · exact hshared
  | cons m ms ih =>
    cases m with
    | nullable =>
      unfold outNested outType
      split
      · exact hshared
      · have := (GenTypes.Piece.angle (key "optional" (by decide) (by decide +kernel)) ih (start_out hs composite ms)).close
        have e : str "std::optional<" = str "std::" ++ str "optional" ++ str "<" := by decide
        simpa only [CType.tokens, e] using this
    | list =>
      have := (GenTypes.Piece.angle (key "vector" (by decide) (by decide +kernel)) ih (start_out hs composite ms)).close
      have e : str "std::vector<" = str "std::" ++ str "vector" ++ str "<" := by decide
      simpa only [outNested, outType, CType.tokens, e] using this

theorem piece_outLeaf {f : OutputField} (h : IsName f.type ∧ cpp f.type ∉ keywords) :
    Piece (leafText f) (outPath f).tokens ∧ ∃ c r, leafText f = c :: r ∧ nameStart c = true := by
  have ho : Piece (str "service::Object") (path "service" ["Object"]).tokens := by
    have := piece_known (a := "service") (bs := ["Object"]) (known_ok (by decide) (by decide) (by decide +kernel) (by decide +kernel))
    have e : str "service::Object" = str "service" ++ str "::" ++ str "Object" := by decide
    simpa [e] using this
  have hs : ∃ c r, cpp f.type = c :: r ∧ nameStart c = true := GenObject.start_name (cpp_name h.1)
  unfold leafText outPath
  cases f.fieldType with
  | builtin => exact ⟨piece_builtin _, start_builtin _⟩
  | enum => exact ⟨Piece.word (cpp_name h.1) h.2, hs⟩
  | scalar => exact ⟨piece_response (b := "Value") (by decide) (by decide +kernel), ⟨_, _, rfl, by decide⟩⟩
  | union => exact ⟨ho, ⟨_, _, rfl, by decide⟩⟩
  | interface => exact ⟨ho, ⟨_, _, rfl, by decide⟩⟩
  | object =>
    cases f.interfaceField
    · exact ⟨Piece.word (cpp_name h.1) h.2, hs⟩
    · refine ⟨?_, ⟨_, _, rfl, by decide⟩⟩
      have l1 : Closed (str "object::") [.word (str "object"), p "::"] := Closed.lit _ (by decide +kernel)
      have := l1.thenP (Piece.word (cpp_name h.1) h.2)
      exact this

/-! ## Functions -/

theorem TypePiece.then {s t : Str} {c : Byte} {a b : List Tok} (h : TypePiece s a) (hc : c = chr ' ' ∨ c = chr '>' ∨ c = chr '&')
    (k : Closed (c :: t) b) : Closed (s ++ c :: t) (a ++ b) := by
  intro r x hr
  rw [List.append_assoc, List.append_assoc]
  exact h c (t ++ r) (b ++ x) hc (k r x hr)

theorem suffix_word (n : Str) : n ++ str "Arg" ∉ keywords := by
  intro hm
  have : ∀ k ∈ keywords, ∀ r, k.reverse ≠ chr 'g' :: chr 'r' :: chr 'A' :: r := by
    have h : ∀ k ∈ keywords, k.reverse.take 3 ≠ [chr 'g', chr 'r', chr 'A'] := by decide +kernel
    intro k hk r e
    exact h k hk (by rw [e]; rfl)
  refine this _ hm n.reverse ?_
  rw [List.reverse_append]
  rfl

theorem suffix_name {n : Str} (h : IsName n) : IsName (n ++ str "Arg") := by
  obtain ⟨c, cs, rfl, h1, h2⟩ := h
  refine ⟨c, cs ++ str "Arg", rfl, h1, fun b hb => ?_⟩
  rcases List.mem_append.1 hb with hb | hb
  · exact h2 b hb
  · exact (by decide : ∀ b ∈ str "Arg", nameCont b = true) b hb

theorem closed_params {as : List InputField} (h : FieldsOk print read as) {tail : Str} {b : List Tok} (ht : Closed tail b) (hb : Begins tail) :
    Closed (as.flatMap parameterText ++ tail) ((as.map paramD).flatMap Member.argumentTokens ++ b) ∧
      Begins (as.flatMap parameterText ++ tail) := by
  have hn : ∀ a ∈ as, IsName a.name := h.name
  have hty : ∀ a ∈ as, IsName a.type ∧ cpp a.type ∉ keywords := h.type
  clear h
  induction as with
  | nil => exact ⟨ht, hb⟩
  | cons a as ih =>
    obtain ⟨ih1, ih2⟩ := ih (fun x hx => hn x (List.mem_cons_of_mem _ hx)) (fun x hx => hty x (List.mem_cons_of_mem _ hx))
    have ha := hty a List.mem_cons_self
    have l1 : Closed (str ", ") [p ","] := Closed.lit _ (by decide +kernel)
    have l2 : Closed (chr '&' :: str "& ") [p "&&"] := Closed.lit _ (by decide +kernel)
    have h1 := GenTypes.Closed.thenT l1 (piece_nested (piece_leaf ha).1 (piece_leaf ha).2 a.modifiers)
    have h2 := (TypePiece.then h1 (.inr (.inr rfl)) l2).thenP (Piece.word (suffix_name (cpp_name (hn a List.mem_cons_self))) (suffix_word _))
    have h3 := h2.then ih1 ih2
    refine ⟨Closed.of h3 ?_ ?_, ?_⟩
    · have e : chr '&' :: str "& " = str "&& " := by decide
      simp only [List.flatMap_cons, parameterText, getInputCppType_eq, e, List.append_assoc]
    · simp [Member.argumentTokens, paramD]
    · rw [List.flatMap_cons, parameterText]
      simp only [List.append_assoc]
      exact (Begins.lit (s := str ", ") (by decide)).append _

theorem closed_accessor (abstract : Bool) {f : OutputField} (hn : IsName f.name) (ha : f.accessor = str "get" ∨ f.accessor = str "apply")
    (ht : IsName f.type ∧ cpp f.type ∉ keywords) (hf : FieldsOk print read f.arguments) :
    Closed (accessorText abstract f) (accessorD abstract f).tokens := by
  have hr : Piece (str "\tvirtual service::FieldResult") ([kw "virtual"] ++ (path "service" ["FieldResult"]).tokens) := by
    have l : Closed (str "\tvirtual ") [kw "virtual"] := Closed.lit _ (by decide +kernel)
    have k := piece_known (a := "service") (bs := ["FieldResult"]) (known_ok (by decide) (by decide) (by decide +kernel) (by decide +kernel))
    refine Piece.of (l.thenP k) ?_ rfl
    decide
  have h1 := GenTypes.Piece.angle hr (piece_out (piece_outLeaf ht).1 (piece_outLeaf ht).2 (composite f) f.modifiers)
    (start_out (piece_outLeaf ht).2 _ _)
  have l1 : Closed (chr '>' :: str " ") [p ">"] := Closed.lit _ (by decide +kernel)
  have l2 : Closed (str "(service::FieldParams&& ") ([p "("] ++ (path "service" ["FieldParams"]).tokens ++ [p "&&"]) :=
    Closed.lit _ (by decide +kernel)
  have l3 : Piece (str "params") [.word (str "params")] := Piece.word (isName_lit (by decide)) (by decide +kernel)
  have l4 : Closed (str ") const" ++ ((if f.interfaceField || abstract then str " = 0" else if f.inheritedField then str " override" else []) ++
      str ";\n")) ([p ")", kw "const"] ++ ((ending abstract f).tokens ++ [p ";"])) := by
    unfold ending
    split
    · exact Closed.lit _ (by decide +kernel)
    · split
      · exact Closed.lit _ (by decide +kernel)
      · exact Closed.lit _ (by decide +kernel)
  obtain ⟨h2, h3⟩ := closed_params hf l4 ((Begins.lit (by decide)).append _)
  have h4 := ((TypePiece.then h1 (.inr (.inl rfl)) l1).thenP (piece_accessor hn ha)).then (l2.thenP l3 |>.then h2 h3) (by
    rw [List.append_assoc]
    exact (Begins.lit (by decide)).append _)
  refine Closed.of h4 ?_ ?_
  · have e1 : str "\tvirtual service::FieldResult<" = str "\tvirtual service::FieldResult" ++ str "<" := by decide
    have e2 : chr '>' :: str " " = str "> " := by decide
    have e3 : str "(service::FieldParams&& params" = str "(service::FieldParams&& " ++ str "params" := by decide
    simp only [accessorText, getResolverCppType_eq, e1, e2, e3, List.append_assoc]
  · unfold Accessor.tokens
    simp only [accessorD, accessorName, List.append_assoc, List.cons_append, List.nil_append]

theorem closed_accessors (abstract : Bool) {t : ObjectType} (h : WrittenOk print read t) {fs : List OutputField} (hs : ∀ f ∈ fs, f ∈ t.fields) :
    Closed (fs.flatMap (accessorText abstract)) ((fs.map (accessorD abstract)).flatMap Accessor.tokens) := by
  rw [List.flatMap_map]
  exact closed_flatMap fun f hf =>
    closed_accessor abstract (h.name f (hs f hf)) (h.accessor f (hs f hf)) (h.result f (hs f hf)) (h.arguments f (hs f hf))

theorem closed_resolver {n : Str} (h : IsName n) (hk : n ∉ keywords) : Closed (resolverDecl n) (resolverTokens n) := by
  have l1 : Closed (str "\tstd::future<service::ResolverResult> ") ((path "std" ["future"]).tokens ++ [p "<"] ++
      (path "service" ["ResolverResult"]).tokens ++ [p ">"]) := Closed.lit _ (by decide +kernel)
  have l2 : Closed (str "(service::ResolverParams&& params);\n") ([p "("] ++ (path "service" ["ResolverParams"]).tokens ++
      [p "&&", .word (str "params"), p ")", p ";"]) := Closed.lit _ (by decide +kernel)
  refine Closed.of ((l1.thenP (Piece.word h hk)).then l2 (Begins.lit (by decide))) rfl ?_
  unfold resolverTokens
  simp only [List.append_assoc, List.cons_append, List.nil_append]

theorem closed_interface (abstract : Bool) {i : InterfaceType} (h : WrittenOk print read { type := i.type, fields := i.fields }) :
    Closed (interfaceText abstract i) (interfaceD abstract i).tokens := by
  have l1 : Closed (str "struct ") [kw "struct"] := Closed.lit _ (by decide +kernel)
  have l2 : Closed (str "\n{\n") [p "{"] := Closed.lit _ (by decide +kernel)
  have l3 : Closed (str "};\n\n") [p "}", p ";"] := Closed.lit _ (by decide +kernel)
  have h1 := closed_accessors abstract h (fs := i.fields) fun f hf => hf
  refine Closed.of ((((l1.thenP (Piece.word (cpp_name h.type.1) h.type.2)).then l2 (Begins.lit (by decide))).then h1).then l3) ?_ ?_
  · simp only [interfaceText, List.append_assoc]
  · simp only [interfaceD, ClassHeader.tokens, List.append_assoc, List.cons_append, List.nil_append]

theorem closed_class (abstract introspection : Bool) {t : ObjectType} (h : WrittenOk print read t)
    (hi : ∀ n ∈ t.interfaces, IsName n ∧ cpp n ∉ keywords) :
    Closed (classText abstract introspection t) (classD abstract introspection t).tokens := by
  have hc : Piece (cpp t.type) [.word (cpp t.type)] := Piece.word (cpp_name h.type.1) h.type.2
  have l1 : Closed (str "class ") [kw "class"] := Closed.lit _ (by decide +kernel)
  have l2 : Closed (str "\n\t: public ") [p ":", kw "public"] := Closed.lit _ (by decide +kernel)
  have ho : Piece (str "service::Object") (path "service" ["Object"]).tokens := by
    have := piece_known (a := "service") (bs := ["Object"]) (known_ok (by decide) (by decide) (by decide +kernel) (by decide +kernel))
    have e : str "service::Object" = str "service" ++ str "::" ++ str "Object" := by decide
    simpa [e] using this
  have l3 : Closed (str "\n{\nprotected:\n\texplicit ") [p "{", kw "protected", p ":", kw "explicit"] := Closed.lit _ (by decide +kernel)
  have l4 : Closed (str "();\n") [p "(", p ")", p ";"] := Closed.lit _ (by decide +kernel)
  have l9 : Closed (str "};\n") [p "}", p ";"] := Closed.lit _ (by decide +kernel)
  have hrest : Closed ((if t.fields.isEmpty then []
     else
      (if (declared abstract t).isEmpty then [] else str "\npublic:\n") ++ (declared abstract t).flatMap (accessorText abstract) ++
      str "\nprivate:\n" ++ t.fields.flatMap (fun f => resolverDecl (resolver f)) ++ str "\n" ++ resolverDecl (str "resolve_typename") ++
      (if introspection then resolverDecl (str "resolve_schema") ++ resolverDecl (str "resolve_type") ++
        str "\n\tstd::shared_ptr<schema::Schema> _schema;\n" else [])) ++ str "};\n")
      ((if (classD abstract introspection t).accessors = [] then []
        else [kw "public", p ":"] ++ (classD abstract introspection t).accessors.flatMap Accessor.tokens) ++
       (if (classD abstract introspection t).resolvers = [] then []
        else [kw "private", p ":"] ++ (classD abstract introspection t).resolvers.flatMap resolverTokens) ++
       (if (classD abstract introspection t).schema then (path "std" ["shared_ptr"]).tokens ++ [p "<"] ++ (path "schema" ["Schema"]).tokens ++
          [p ">", .word (str "_schema"), p ";"] else []) ++ [p "}", p ";"]) := by
    by_cases hf : t.fields = []
    · have hd : declared abstract t = [] := by simp [declared, hf]
      have e : (classD abstract introspection t).accessors = [] := by simp [classD, hd]
      have e2 : (classD abstract introspection t).resolvers = [] := by simp [classD, hf]
      have e3 : (classD abstract introspection t).schema = false := by simp [classD, hf]
      rw [e, e2, e3]
      simp only [hf, List.isEmpty_nil, if_true, List.nil_append, Bool.false_eq_true, if_false]
      exact l9
    · have hd : ∀ f ∈ declared abstract t, f ∈ t.fields := fun f hf => List.mem_of_mem_filter hf
      have h1 : Closed ((if (declared abstract t).isEmpty then [] else str "\npublic:\n") ++ (declared abstract t).flatMap (accessorText abstract))
          (if (classD abstract introspection t).accessors = [] then []
            else [kw "public", p ":"] ++ (classD abstract introspection t).accessors.flatMap Accessor.tokens) := by
        by_cases he : declared abstract t = []
        · simp only [classD, he]
          exact Closed.nil
        · have l : Closed (str "\npublic:\n") [kw "public", p ":"] := Closed.lit _ (by decide +kernel)
          have := l.then (closed_accessors abstract h hd)
          simpa [classD, he] using this
      have lp : Closed (str "\nprivate:\n") [kw "private", p ":"] := Closed.lit _ (by decide +kernel)
      have ln : Closed (str "\n") [] := Closed.lit _ (by decide +kernel)
      have h2 := closed_flatMap (xs := t.fields) (f := fun f => resolverDecl (resolver f)) (g := fun f => resolverTokens (resolver f)) fun f hf =>
        closed_resolver (IsName.prefix (isName_lit (by decide)) (GenObject.capital_name (h.name f hf))) (GenObject.res_word _)
      have k1 : Closed (resolverDecl (str "resolve_typename")) (resolverTokens (str "resolve_typename")) :=
        closed_resolver (isName_lit (by decide)) (by decide +kernel)
      have k2 : Closed (resolverDecl (str "resolve_schema")) (resolverTokens (str "resolve_schema")) :=
        closed_resolver (isName_lit (by decide)) (by decide +kernel)
      have k3 : Closed (resolverDecl (str "resolve_type")) (resolverTokens (str "resolve_type")) :=
        closed_resolver (isName_lit (by decide)) (by decide +kernel)
      have ls : Closed (str "\n\tstd::shared_ptr<schema::Schema> _schema;\n") ((path "std" ["shared_ptr"]).tokens ++ [p "<"] ++
        (path "schema" ["Schema"]).tokens ++ [p ">", .word (str "_schema"), p ";"]) := Closed.lit _ (by decide +kernel)
      have h3 := h1.then (lp.then (h2.then (ln.then k1)))
      have hr : (classD abstract introspection t).resolvers ≠ [] := by simp [classD, hf]
      have hie : t.fields.isEmpty = false := by simpa using hf
      rw [hie, if_neg hr]
      have es : (classD abstract introspection t).schema = introspection := by simp [classD, hf]
      rw [es]
      cases introspection with
      | false =>
        refine Closed.of (h3.then l9) ?_ ?_
        · simp only [Bool.false_eq_true, if_false, List.append_assoc, List.nil_append, List.append_nil]
        · have : (classD abstract false t).resolvers.flatMap resolverTokens =
              t.fields.flatMap (fun f => resolverTokens (resolver f)) ++ resolverTokens (str "resolve_typename") := by
            simp [classD, hf, List.flatMap_map]
          rw [this]
          simp only [Bool.false_eq_true, if_false, List.append_assoc, List.nil_append, List.append_nil]
      | true =>
        refine Closed.of (h3.then (k2.then (k3.then (ls.then l9)))) ?_ ?_
        · simp only [Bool.false_eq_true, if_false, if_true, List.append_assoc, List.nil_append, List.append_nil]
        · have : (classD abstract true t).resolvers.flatMap resolverTokens =
              t.fields.flatMap (fun f => resolverTokens (resolver f)) ++ (resolverTokens (str "resolve_typename") ++
                (resolverTokens (str "resolve_schema") ++ resolverTokens (str "resolve_type"))) := by
            simp [classD, hf, List.flatMap_map]
          rw [this]
          simp only [if_true, List.append_assoc, List.nil_append, List.append_nil]
  -- the bases
  have hb : ∀ (ns : List Str), (∀ n ∈ ns, IsName n ∧ cpp n ∉ keywords) → ∀ (tail : Str) (b : List Tok), Closed tail b → Begins tail →
      Closed (ns.flatMap (fun i => str "\n\t, public " ++ cpp i) ++ tail) ((ns.map cpp).flatMap (fun b => [p ",", kw "public", .word b]) ++ b) ∧
      Begins (ns.flatMap (fun i => str "\n\t, public " ++ cpp i) ++ tail) := by
    intro ns hn tail b ht hB
    induction ns with
    | nil => exact ⟨ht, hB⟩
    | cons n ns ih =>
      obtain ⟨i1, i2⟩ := ih fun x hx => hn x (List.mem_cons_of_mem _ hx)
      have hx := hn n List.mem_cons_self
      have l : Closed (str "\n\t, public ") [p ",", kw "public"] := Closed.lit _ (by decide +kernel)
      refine ⟨Closed.of ((l.thenP (Piece.word (cpp_name hx.1) hx.2)).then i1 i2) ?_ ?_, ?_⟩
      · simp only [List.flatMap_cons, List.append_assoc]
      · simp
      · rw [List.flatMap_cons]
        simp only [List.append_assoc]
        exact (Begins.lit (s := str "\n\t, public ") (by decide)).append _
  obtain ⟨b1, b2⟩ := hb t.interfaces hi _ _ ((l3.thenP hc).then l4 (Begins.lit (by decide)) |>.then hrest) (by
    simp only [List.append_assoc]
    exact (Begins.lit (s := str "\n{\nprotected:\n\texplicit ") (by decide)).append _)
  refine Closed.of ((((l1.thenP hc).then l2 (Begins.lit (by decide))).thenP ho).then b1 b2) ?_ ?_
  · have e : str "\n\t: public service::Object" = str "\n\t: public " ++ str "service::Object" := by decide
    simp only [classText, e, List.append_assoc]
  · unfold ClassDecl.tokens
    rw [show (classD abstract introspection t).name = cpp t.type from rfl,
      show (classD abstract introspection t).bases = t.interfaces.map cpp from rfl]
    simp only [List.append_assoc, List.cons_append, List.nil_append]

theorem reads_classes (abstract : Bool) (query : Option Str) (h : ClassesWritten print read is os) :
    Cpp.Code.ReadsClasses (headerText abstract query is os) (headerD abstract query is os) := by
  have l1 : Closed (str "class ") [kw "class"] := Closed.lit _ (by decide +kernel)
  have l2 : Closed (str "struct ") [kw "struct"] := Closed.lit _ (by decide +kernel)
  have l3 : Closed (str ";\n") [p ";"] := Closed.lit _ (by decide +kernel)
  have l4 : Closed (str "\n") [] := Closed.lit _ (by decide +kernel)
  have h1 := closed_flatMap (xs := os) (g := fun t => (ClassHeader.forwardClass (cpp t.type)).tokens) fun t ht =>
    Closed.of ((l1.thenP (Piece.word (cpp_name (h.objects t ht).type.1) (h.objects t ht).type.2)).then l3 (Begins.lit (by decide))) rfl rfl
  have h2 := closed_flatMap (xs := is) (g := fun t => (ClassHeader.forwardStruct (cpp t.type)).tokens) fun t ht =>
    Closed.of ((l2.thenP (Piece.word (cpp_name (h.interfaces t ht).type.1) (h.interfaces t ht).type.2)).then l3 (Begins.lit (by decide))) rfl rfl
  have h3 := closed_flatMap (xs := is) fun t ht => closed_interface abstract (h.interfaces t ht)
  have h4 := closed_flatMap (xs := os) fun t ht =>
    (closed_class abstract (query = some t.type) (h.objects t ht) fun n hn => by
      obtain ⟨i, hi, rfl⟩ := h.implements t ht n hn
      exact (h.interfaces i hi).type).then l4
  have h5 : Closed (if is.length > 1 then is.flatMap (fun t => str "struct " ++ cpp t.type ++ str ";\n") ++ str "\n" else [])
      ((if is.length > 1 then is.map (fun t => ClassHeader.forwardStruct (cpp t.type)) else []).flatMap ClassHeader.tokens) := by
    split
    · exact Closed.of (h2.then l4) rfl (by simp [List.flatMap_map])
    · exact Closed.nil
  refine Closed.lexes (Closed.of (((h1.then l4).then h5).then h3 |>.then h4) ?_ ?_)
  · simp only [headerText, List.append_assoc]
  · simp [headerD, List.flatMap_map, ClassHeader.tokens]

end Verif.GenClass
