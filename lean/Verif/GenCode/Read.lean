import Verif.GenCode.Tree
import Verif.GenCode.Spec
import Verif.GenText.ReadAll
import Verif.Gen.TypesProps

/-!
# Reading the text of the code

The text of `Verif.GenCode.Model` is the text of the syntax of `Verif.GenCode.Tree`.
-/
namespace Verif.GenCode
open Verif.Value Verif.Resp Verif.Modifiers Verif.Text
open Verif.Gen (InputField InputType getTypeModifiers separated modifierText)
open Verif.GenText
open Verif.Cpp (Path path word Tok p kw Lexes StartsB commaTokens keywords NoClose)
open Verif.Cpp.Code (Expr Stmt Function templateTokens)

theorem lit' (n : Nat) {s : Str} (a : List Tok) (h : Cpp.scan n s = some a) : Closed s a := fun _ _ hr => Lexes.scan h hr

theorem closed_padding (n : Nat) : Closed (padding n) [] := by
  intro r b hr
  induction n with
  | zero => exact hr
  | succ n ih => exact .space (by decide) ih

theorem piece_gqlPlain {s : Str} (h : GqlOk s) : Piece (str "R\"gql(" ++ s ++ str ")gql\"") [.text s false] := fun r b hs hr => by
  have := Lexes.rawPlain (d := str "gql") (s := s) (by decide) (by decide) h hs hr
  have e1 : str "R\"gql(" = str "R\"" ++ str "gql" ++ str "(" := by decide
  have e2 : str ")gql\"" = str ")" ++ str "gql" ++ str "\"" := by decide
  simpa only [e1, e2, List.append_assoc, List.cons_append, List.nil_append] using this

/-- `<` in front of a name -/
theorem piece_angle {s : Str} {a : List Tok} (h : Piece s a) (hn : ∃ c r, s = c :: r ∧ nameStart c = true) :
    Piece (str "<" ++ s) (p "<" :: a) := by
  intro r b hs hr
  obtain ⟨c, u, rfl, hc⟩ := hn
  refine .token (rest := c :: u ++ r) ?_ (h r b hs hr)
  have e : str "<" = [Cpp.chr '<'] := by decide
  have h1 : nameStart (Cpp.chr '<') = false := by decide
  have h2 : isDigit (Cpp.chr '<') = false := by decide
  have h3 : ¬ Cpp.chr '<' = Cpp.chr '"' := by decide
  have h4 : ¬ Cpp.chr '<' ∈ str "(){}[],;" := by decide
  have h5 : ¬ (Cpp.chr '<' = Cpp.chr ':' ∧ c = Cpp.chr ':') := by rintro ⟨h, -⟩; exact absurd h (by decide)
  have h6 : ¬ (Cpp.chr '<' = Cpp.chr '-' ∧ c = Cpp.chr '>') := by rintro ⟨h, -⟩; exact absurd h (by decide)
  simp only [e, List.cons_append, List.nil_append, Cpp.token, h1, h2, h3, h4, if_false, Bool.false_eq_true, Cpp.operatorText, h5, h6,
    true_and, hc, true_or, if_true]
  rfl

theorem name_start {w : Str} (h : IsName w) (r : Str) : ∃ c u, w ++ r = c :: u ∧ nameStart c = true := by
  obtain ⟨c, cs, rfl, hc, -⟩ := h
  exact ⟨c, cs ++ r, rfl, hc⟩

/-! ## Numbers -/

theorem closed_number {s : Str} (h : Cpp.token (s ++ str ")") = some (.number s, str ")")) (t : Str) {a : List Tok}
    (ht : Closed (str ")" ++ t) a) : Closed (s ++ (str ")" ++ t)) (.number s :: a) := by
  intro r b hr
  cases s with
  | nil => exact absurd h (by decide)
  | cons c s =>
    have := Cpp.token_append (c := c) (s := s ++ str ")") (t := t ++ r) (r := str ")") h (by simp) (Or.inl (by decide))
    refine .token (rest := str ")" ++ (t ++ r)) ?_ (by simpa using ht r b hr)
    simpa using this

theorem closed_signed {q : Bool × Str} (h : Cpp.token (q.2 ++ str ")") = some (.number q.2, str ")"))
    (t : Str) {a : List Tok} (ht : Closed (str ")" ++ t) a) :
    Closed ((if q.1 then str "-" else []) ++ (q.2 ++ (str ")" ++ t))) ((Expr.number q.1 q.2).tokens ++ a) := by
  obtain ⟨b, s⟩ := q
  cases b with
  | false => simpa [Expr.tokens] using closed_number h t ht
  | true =>
    have h1 := closed_number h t ht
    have hd : ∃ c u, s = c :: u ∧ isDigit c = true := by
      cases s with
      | nil => exact absurd h (by decide)
      | cons c u =>
        refine ⟨c, u, rfl, ?_⟩
        cases hc : isDigit c with
        | true => rfl
        | false =>
          exfalso
          simp only [List.cons_append, Cpp.token, hc, Bool.false_eq_true, if_false] at h
          split at h
          · split at h
            · simp [Cpp.wordTok] at h; split at h <;> simp at h
            · split at h
              · split at h
                · simp only [Option.bind_eq_some_iff] at h
                  obtain ⟨x, -, hx⟩ := h
                  unfold Cpp.suffixed at hx
                  dsimp only at hx
                  split at hx
                  · simp at hx
                  · split at hx <;> simp at hx
                · simp at h
              · simp [Cpp.wordTok] at h
                obtain ⟨h, -⟩ := h
                split at h <;> simp at h
          · split at h
            · simp only [Option.bind_eq_some_iff] at h
              obtain ⟨x, -, hx⟩ := h
              unfold Cpp.suffixed at hx
              dsimp only at hx
              split at hx
              · simp at hx
              · split at hx <;> simp at hx
            · split at h
              · simp at h
              · obtain ⟨w, hw⟩ := Cpp.operator_punct h
                simp at hw
    intro r b hr
    obtain ⟨c, u, rfl, hc⟩ := hd
    simp only [if_true, List.append_assoc, Expr.tokens]
    refine .token (t := p "-") (rest := (c :: u) ++ (str ")" ++ t) ++ r) ?_ (by simpa using h1 r b hr)
    have e : str "-" = [Cpp.chr '-'] := by decide
    have h1 : nameStart (Cpp.chr '-') = false := by decide
    have h2 : isDigit (Cpp.chr '-') = false := by decide
    have h3 : ¬ Cpp.chr '-' = Cpp.chr '"' := by decide
    have h4 : ¬ Cpp.chr '-' ∈ str "(){}[],;" := by decide
    have hx : ∀ c : Byte, isDigit c = true → (Cpp.operatorText (Cpp.chr '-') [c]) = some (.punct (str "-"), [c]) := by
      decide +kernel
    have hy := hx c hc
    simp only [e, List.cons_append, List.nil_append, Cpp.token, h1, h2, h3, h4, if_false, Bool.false_eq_true]
    have hz := Cpp.operator_append (t := u ++ str ")" ++ t ++ r) hy
    simpa [p, e] using hz

theorem sign_eq (s : Str) : s = (if (sign s).1 then str "-" else []) ++ (sign s).2 := by
  cases s with
  | nil => rfl
  | cons c s =>
    by_cases h : c = Cpp.chr '-'
    · subst h; simp [sign]; rfl
    · simp [sign, h]

theorem int_text (i : Int) : str (toString i) = (if decide (i < 0) then str "-" else []) ++ str (toString i.natAbs) := by
  have hs : ∀ a b : String, str (a ++ b) = str a ++ str b := by intro a b; simp [str]
  cases i with
  | ofNat n => simp [toString]; rfl
  | negSucc n =>
    have : toString (Int.negSucc n) = "-" ++ toString (n + 1) := by rfl
    rw [this, hs]
    simp

theorem int_number (n : Nat) : Cpp.token (str (toString n) ++ str ")") = some (.number (str (toString n)), str ")") := by
  obtain ⟨c, cs, e, h1, h2⟩ := number_digits n
  rw [e]
  have := digits_number h1 h2 (d := Cpp.chr ')') (by decide) (by decide) (by decide) []
  have e2 : str ")" = [Cpp.chr ')'] := by decide
  rw [List.cons_append] at this
  simp only [e2, List.cons_append, Cpp.token, digit_start c h1, h1, Bool.false_eq_true, if_false, if_true, this]
  rfl

/-! ## Default values -/

def numberE (print : Double → Str) (d : Double) : Expr := .number (sign (print d)).1 (sign (print d)).2

theorem listTokens_append (a b : List Stmt) : Stmt.listTokens (a ++ b) = Stmt.listTokens a ++ Stmt.listTokens b := by
  induction a with
  | nil => rfl
  | cons s a ih => simp [Stmt.listTokens, ih]

theorem lit_open : Closed (str "\t\tentry = []()\n") [.word (str "entry"), p "=", p "[", p "]", p "(", p ")"] :=
  Closed.lit _ (by decide +kernel)
theorem lit_brace : Closed (str "\t\t{\n") [p "{"] := Closed.lit _ (by decide +kernel)
theorem lit_entry : Closed (str "\t\t\tresponse::Value entry;\n\n") [.word (str "response"), p "::", .word (str "Value"),
    .word (str "entry"), p ";"] := Closed.lit _ (by decide +kernel)
theorem lit_end : Closed (str "\t\t}();\n") [p "}", p "(", p ")", p ";"] := Closed.lit _ (by decide +kernel)
theorem lit_move : Closed (str ", std::move(entry));\n") [p ",", .word (str "std"), p "::", .word (str "move"), p "(",
    .word (str "entry"), p ")", p ")", p ";"] := Closed.lit _ (by decide +kernel)

/-- The parts of `entry = []() { ... }();` -/
theorem closed_lambda (n : Nat) {x k : String} {s first last : Str} {b : List Stmt}
    (hf : Closed first (Stmt.varWith valueT (str x) (.name (path "response" ["Type", k]))).tokens)
    (hl : Closed last (Stmt.ret (var x)).tokens) (h : Closed s (Stmt.listTokens b)) :
    Closed (padding n ++ str "\t\tentry = []()\n" ++ padding n ++ str "\t\t{\n" ++ padding n ++ first ++
      padding n ++ str "\t\t\tresponse::Value entry;\n\n" ++ s ++ padding n ++ last ++ padding n ++ str "\t\t}();\n")
      (Stmt.listTokens [.assign (str "entry") (.invoke (containerS x k ++ (b ++ [.ret (var x)])))]) := by
  have hp := closed_padding n
  refine Closed.of ((((((((((((hp.then lit_open).then hp).then lit_brace).then hp).then hf).then hp).then lit_entry).then h).then hp).then
    hl).then hp).then lit_end) rfl ?_
  simp [Stmt.listTokens, Stmt.tokens, Expr.tokens, containerS, listTokens_append, valueT, Path.tokens, path]

theorem quoted_text {s t : Str} (h : IsName s) {a : List Tok} (ht : Closed t a) (hb : Begins t) :
    Closed (str "\"" ++ s ++ str "\"" ++ t) (.text s false :: a) := (piece_quoted h).then ht hb

mutual
theorem closed_default (print : Double → Str) (read : Str → Double) (n : Nat) (v : Resp) (h : DefaultOk print read v) :
    Closed (defaultText print n v) (Stmt.listTokens (defaultS (numberE print) v)) := by
  have hp := closed_padding n
  match v with
  | .map members =>
    simp only [DefaultOk] at h
    have h1 : Closed (str "\t\t\tresponse::Value members(response::Type::Map);\n")
        (Stmt.varWith valueT (str "members") (.name (path "response" ["Type", "Map"]))).tokens := lit' 200 _ (by decide +kernel)
    have h2 : Closed (str "\t\t\treturn members;\n") (Stmt.ret (var "members")).tokens := Closed.lit _ (by decide +kernel)
    have h3 := closed_members print read n members h.2
    exact Closed.of (closed_lambda n h1 h2 h3) (by simp [defaultText]) (by simp [defaultS])
  | .list elements =>
    simp only [DefaultOk] at h
    have h1 : Closed (str "\t\t\tresponse::Value elements(response::Type::List);\n")
        (Stmt.varWith valueT (str "elements") (.name (path "response" ["Type", "List"]))).tokens := lit' 200 _ (by decide +kernel)
    have h2 : Closed (str "\t\t\treturn elements;\n") (Stmt.ret (var "elements")).tokens := Closed.lit _ (by decide +kernel)
    have h3 := closed_elements print read n elements h
    exact Closed.of (closed_lambda n h1 h2 h3) (by simp [defaultText]) (by simp [defaultS])
  | .string s j =>
    simp only [DefaultOk] at h
    have h1 : Closed (str "\t\tentry = response::Value(std::string(") [.word (str "entry"), p "=", .word (str "response"), p "::",
      .word (str "Value"), p "(", .word (str "std"), p "::", .word (str "string"), p "("] := Closed.lit _ (by decide +kernel)
    have h2 : Closed (str "));\n") [p ")", p ")", p ";"] := Closed.lit _ (by decide +kernel)
    refine Closed.of ((hp.then h1).then ((piece_gqlPlain h.2.1).then h2 (Begins.lit (by decide)))) ?_ ?_
    · have e1 : str "\t\tentry = response::Value(std::string(R\"gql(" = str "\t\tentry = response::Value(std::string(" ++ str "R\"gql(" := by
        decide
      have e2 : str ")gql\"));\n" = str ")gql\"" ++ str "));\n" := by decide
      simp only [defaultText, e1, e2, List.append_assoc]
    · simp [defaultS, Stmt.listTokens, Stmt.tokens, Expr.tokens, Expr.listTokens, Expr.moreTokens, valueT, Path.tokens, path]
  | .null =>
    have h1 : Closed (str "\t\tentry = {};\n") [.word (str "entry"), p "=", p "{", p "}", p ";"] := Closed.lit _ (by decide +kernel)
    refine Closed.of (hp.then h1) (by simp [defaultText]) ?_
    simp [defaultS, Stmt.listTokens, Stmt.tokens, Expr.tokens, Expr.listTokens]
  | .boolean b =>
    have h1 : Closed (str "\t\tentry = response::Value(") [.word (str "entry"), p "=", .word (str "response"), p "::",
      .word (str "Value"), p "("] := Closed.lit _ (by decide +kernel)
    have h2 : Closed (str "true);\n") [kw "true", p ")", p ";"] := Closed.lit _ (by decide +kernel)
    have h3 : Closed (str "false);\n") [kw "false", p ")", p ";"] := Closed.lit _ (by decide +kernel)
    cases b with
    | true =>
      refine Closed.of ((hp.then h1).then h2) ?_ ?_
      · have e : str "true);\n" = str "true" ++ str ");\n" := by decide
        simp only [defaultText, e, if_true, List.append_assoc]
      · simp [defaultS, Stmt.listTokens, Stmt.tokens, Expr.tokens, Expr.listTokens, Expr.moreTokens, valueT, Path.tokens, path]
    | false =>
      refine Closed.of ((hp.then h1).then h3) ?_ ?_
      · have e : str "false);\n" = str "false" ++ str ");\n" := by decide
        simp only [defaultText, e, if_false, Bool.false_eq_true, List.append_assoc]
      · simp [defaultS, Stmt.listTokens, Stmt.tokens, Expr.tokens, Expr.listTokens, Expr.moreTokens, valueT, Path.tokens, path]
  | .int i =>
    have h1 : Closed (str "\t\tentry = response::Value(static_cast<response::IntType>(") [.word (str "entry"), p "=",
      .word (str "response"), p "::", .word (str "Value"), p "(", kw "static_cast", p "<", .word (str "response"), p "::",
      .word (str "IntType"), p ">", p "("] := Closed.lit _ (by decide +kernel)
    have h2 : Closed (str ")" ++ str ");\n") [p ")", p ")", p ";"] := Closed.lit _ (by decide +kernel)
    have h3 := closed_signed (q := (decide (i < 0), str (toString i.natAbs))) (int_number _) _ h2
    refine Closed.of ((hp.then h1).then h3) ?_ ?_
    · have e : str "));\n" = str ")" ++ str ");\n" := by decide
      simp only [defaultText, int_text i, e, List.append_assoc]
    · simp [defaultS, Stmt.listTokens, Stmt.tokens, Expr.tokens, Expr.listTokens, Expr.moreTokens, valueT, Path.tokens, path, intE]
  | .float d =>
    simp only [DefaultOk] at h
    have h1 : Closed (str "\t\tentry = response::Value(static_cast<response::FloatType>(") [.word (str "entry"), p "=",
      .word (str "response"), p "::", .word (str "Value"), p "(", kw "static_cast", p "<", .word (str "response"), p "::",
      .word (str "FloatType"), p ">", p "("] := Closed.lit _ (by decide +kernel)
    have h2 : Closed (str ")" ++ str ");\n") [p ")", p ")", p ";"] := Closed.lit _ (by decide +kernel)
    have h3 := closed_signed (q := sign (print d)) h.1 _ h2
    refine Closed.of ((hp.then h1).then h3) ?_ ?_
    · have e : str "));\n" = str ")" ++ str ");\n" := by decide
      have e2 := sign_eq (print d)
      simp only [defaultText, e, List.append_assoc]
      conv_lhs => rw [e2]
      simp only [List.append_assoc]
    · simp [defaultS, Stmt.listTokens, Stmt.tokens, Expr.tokens, Expr.listTokens, Expr.moreTokens, valueT, Path.tokens, path,
        numberE]
  | .enumValue s =>
    simp only [DefaultOk] at h
    have h1 : Closed (str "\t\tentry = response::Value(response::Type::EnumValue);\n\t\tentry.set<response::StringType>(")
      [.word (str "entry"), p "=", .word (str "response"), p "::", .word (str "Value"), p "(", .word (str "response"), p "::",
       .word (str "Type"), p "::", .word (str "EnumValue"), p ")", p ";", .word (str "entry"), p ".", .word (str "set"), p "<",
       .word (str "response"), p "::", .word (str "StringType"), p ">", p "("] := lit' 200 _ (by decide +kernel)
    have h2 : Closed (str ");\n") [p ")", p ";"] := Closed.lit _ (by decide +kernel)
    have hg : GqlOk s := by
      obtain ⟨c, cs, rfl, h1, h2⟩ := h
      intro a b e
      have hm : Cpp.chr ')' ∈ c :: cs := by
        rw [e]
        have : Cpp.chr ')' ∈ str ")gql\"" := by decide
        simp [this]
      rcases List.mem_cons.1 hm with hm | hm
      · rw [← hm] at h1; exact absurd h1 (by decide)
      · exact absurd (h2 _ hm) (by decide)
    refine Closed.of ((hp.then h1).then ((piece_gqlPlain hg).then h2 (Begins.lit (by decide)))) ?_ ?_
    · have e1 : str "\t\tentry = response::Value(response::Type::EnumValue);\n\t\tentry.set<response::StringType>(R\"gql(" =
        str "\t\tentry = response::Value(response::Type::EnumValue);\n\t\tentry.set<response::StringType>(" ++ str "R\"gql(" := by
        decide
      have e2 : str ")gql\");\n" = str ")gql\"" ++ str ");\n" := by decide
      simp only [defaultText, e1, e2, List.append_assoc]
    · simp [defaultS, Stmt.listTokens, Stmt.tokens, Expr.tokens, Expr.listTokens, Expr.moreTokens, valueT, Path.tokens, path,
        templateTokens, commaTokens]
  | .scalar w =>
    simp only [DefaultOk] at h
    have h1 : Closed (str "\t\t\tresponse::Value scalar(response::Type::Scalar);\n")
        (Stmt.varWith valueT (str "scalar") (.name (path "response" ["Type", "Scalar"]))).tokens := lit' 200 _ (by decide +kernel)
    have h2 : Closed (str "\t\t\treturn scalar;\n") (Stmt.ret (var "scalar")).tokens := Closed.lit _ (by decide +kernel)
    have h3 : Closed (str "\t") [] := Closed.lit _ (by decide +kernel)
    have h4 : Closed (str "\t\t\tscalar.set<response::ScalarType>(std::move(entry));\n\n")
      [.word (str "scalar"), p ".", .word (str "set"), p "<", .word (str "response"), p "::", .word (str "ScalarType"), p ">", p "(",
       .word (str "std"), p "::", .word (str "move"), p "(", .word (str "entry"), p ")", p ")", p ";"] :=
      lit' 200 _ (by decide +kernel)
    have h5 := closed_scalar print read n w h
    have h6 : Closed (padding n ++ str "\t" ++ scalarText print n w ++ padding n ++
        str "\t\t\tscalar.set<response::ScalarType>(std::move(entry));\n\n")
        (Stmt.listTokens (scalarS (numberE print) w ++
          [.expr (.method (str "scalar") (str "set") (some (path "response" ["ScalarType"])) [moveE (str "entry")])])) := by
      refine Closed.of ((((hp.then h3).then h5).then hp).then h4) rfl ?_
      simp [listTokens_append, Stmt.listTokens, Stmt.tokens, Expr.tokens, Expr.listTokens, Expr.moreTokens, Path.tokens, path,
        templateTokens, commaTokens, moveE, word]
    exact Closed.of (closed_lambda n h1 h2 h6) (by simp [defaultText]) (by simp [defaultS])
theorem closed_members (print : Double → Str) (read : Str → Double) (n : Nat) (ms : List (Str × Resp)) (h : MembersOk print read ms) :
    Closed (membersText print n ms) (Stmt.listTokens (membersS (numberE print) ms)) := by
  match ms with
  | [] => exact Closed.of Closed.nil (by simp [membersText]) (by simp [membersS, Stmt.listTokens])
  | m :: ms =>
    simp only [MembersOk] at h
    exact Closed.of ((closed_member print read n m h.1).then (closed_members print read n ms h.2)) (by simp [membersText])
      (by simp [membersS, listTokens_append])
theorem closed_member (print : Double → Str) (read : Str → Double) (n : Nat) (m : Str × Resp) (h : MemberOk print read m) :
    Closed (memberText print n m) (Stmt.listTokens (memberS (numberE print) m)) := by
  match m with
  | (name, v) =>
    simp only [MemberOk] at h
    have hp := closed_padding n
    have h1 : Closed (str "\t\t\tmembers.emplace_back(") [.word (str "members"), p ".", .word (str "emplace_back"), p "("] :=
      Closed.lit _ (by decide +kernel)
    refine Closed.of ((((closed_default print read (n + 1) v h.2).then hp).then h1).then
      (quoted_text h.1 lit_move (Begins.lit (by decide)))) ?_ ?_
    · have e1 : str "\t\t\tmembers.emplace_back(\"" = str "\t\t\tmembers.emplace_back(" ++ str "\"" := by decide
      have e2 : str "\", std::move(entry));\n" = str "\"" ++ str ", std::move(entry));\n" := by decide
      simp only [memberText, e1, e2, List.append_assoc]
    · simp [memberS, listTokens_append, Stmt.listTokens, Stmt.tokens, Expr.tokens, Expr.listTokens, Expr.moreTokens, Path.tokens, path,
        templateTokens, moveE, word]
theorem closed_elements (print : Double → Str) (read : Str → Double) (n : Nat) (vs : List Resp) (h : ElementsOk print read vs) :
    Closed (elementsText print n vs) (Stmt.listTokens (elementsS (numberE print) vs)) := by
  match vs with
  | [] => exact Closed.of Closed.nil (by simp [elementsText]) (by simp [elementsS, Stmt.listTokens])
  | v :: vs =>
    simp only [ElementsOk] at h
    have hp := closed_padding n
    have h1 : Closed (str "\t\t\telements.emplace_back(std::move(entry));\n") [.word (str "elements"), p ".",
      .word (str "emplace_back"), p "(", .word (str "std"), p "::", .word (str "move"), p "(", .word (str "entry"), p ")", p ")",
      p ";"] := Closed.lit _ (by decide +kernel)
    refine Closed.of ((((closed_default print read (n + 1) v h.1).then hp).then h1).then (closed_elements print read n vs h.2)) ?_ ?_
    · simp only [elementsText]
    · simp [elementsS, listTokens_append, Stmt.listTokens, Stmt.tokens, Expr.tokens, Expr.listTokens, Expr.moreTokens, Path.tokens, path,
        templateTokens, moveE, word]
theorem closed_scalar (print : Double → Str) (read : Str → Double) (n : Nat) (v : Option Resp) (h : ScalarOk print read v) :
    Closed (scalarText print n v) (Stmt.listTokens (scalarS (numberE print) v)) := by
  match v with
  | none => exact absurd h (by simp [ScalarOk])
  | some v =>
    simp only [ScalarOk] at h
    exact Closed.of (closed_default print read (n + 1) v h) (by simp [scalarText]) (by simp [scalarS])
end

end Verif.GenCode
