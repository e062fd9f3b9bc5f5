import Verif.Cpp.CodeSpec
import Verif.Cpp.Unique

/-!
# Code has at most one reading

A parser (an instrument of the proof) which finds the syntax from the tokens.
-/
namespace Verif.Cpp.Code
open Verif.Value Verif.Text Verif.Cpp

def eat (t : Tok) : List Tok → Option (List Tok)
  | x :: r => if x = t then some r else none
  | [] => none

@[simp] theorem eat_cons (t : Tok) (r : List Tok) : eat t (t :: r) = some r := by simp [eat]

def pathTail : List Tok → List Str × List Tok
  | t :: .word w :: r => if t = p "::" then (w :: (pathTail r).1, (pathTail r).2) else ([], t :: .word w :: r)
  | r => ([], r)

def parsePath : List Tok → Option (Path × List Tok)
  | .word w :: r => some (⟨w, (pathTail r).1⟩, (pathTail r).2)
  | _ => none

theorem pathTail_stop {r : List Tok} (h : NoScope r) : pathTail r = ([], r) := by
  unfold pathTail
  split
  · rename_i t w r
    split
    · rename_i e; subst e; exact absurd rfl (h _)
    · rfl
  · rfl

theorem pathTail_ok (ws : List Str) {r : List Tok} (h : NoScope r) :
    pathTail (ws.flatMap (fun s => [p "::", Tok.word s]) ++ r) = (ws, r) := by
  induction ws with
  | nil => exact pathTail_stop h
  | cons w ws ih => simp [pathTail, ih]

theorem parsePath_ok (q : Path) {r : List Tok} (h : NoScope r) : parsePath (q.tokens ++ r) = some (q, r) := by
  simp [parsePath, Path.tokens, pathTail_ok _ h]

/-- `, a, b>` -/
def parseMore : Nat → List Tok → Option (List Path × List Tok)
  | 0, _ => none
  | n + 1, r =>
    match eat (p ">") r with
    | some r => some ([], r)
    | none => (eat (p ",") r).bind parsePath |>.bind fun q => (parseMore n q.2).map fun qs => (q.1 :: qs.1, qs.2)

/-- `<a, b>` or nothing -/
def parseTemplate (r : List Tok) : Option (List Path × List Tok) :=
  match eat (p "<") r with
  | none => some ([], r)
  | some r => (parsePath r).bind fun q => (parseMore r.length q.2).map fun qs => (q.1 :: qs.1, qs.2)

theorem parseMore_ok (qs : List Path) (r : List Tok) (n : Nat) (hn : qs.length < n) :
    parseMore n ((qs.flatMap fun q => p "," :: q.tokens) ++ p ">" :: r) = some (qs, r) := by
  induction qs generalizing n with
  | nil =>
    obtain ⟨n, rfl⟩ : ∃ m, n = m + 1 := ⟨n - 1, by simp at hn; omega⟩
    simp [parseMore]
  | cons q qs ih =>
    obtain ⟨n, rfl⟩ : ∃ m, n = m + 1 := ⟨n - 1, by simp at hn; omega⟩
    have hs : NoScope ((qs.flatMap fun q => p "," :: q.tokens) ++ p ">" :: r) := by
      cases qs with
      | nil => exact noScope_p _ (by decide)
      | cons q' qs => exact noScope_p _ (by decide)
    have h0 : eat (p ">") (p "," :: (q.tokens ++ (qs.flatMap (fun q => p "," :: q.tokens) ++ p ">" :: r))) = none := by
      simp [eat, p, str]
    simp [parseMore, h0, parsePath_ok q hs, ih n (by simpa using hn)]

theorem commaTokens_eq (q : Path) (qs : List Path) :
    commaTokens ((q :: qs).map Path.tokens) = q.tokens ++ qs.flatMap fun q => p "," :: q.tokens := by
  induction qs generalizing q with
  | nil => simp [commaTokens]
  | cons q' qs ih => simpa [commaTokens] using ih q'

theorem more_length (qs : List Path) : qs.length ≤ (qs.flatMap fun q => p "," :: q.tokens).length := by
  induction qs with
  | nil => simp
  | cons q qs ih => rw [List.flatMap_cons, List.length_append, List.length_cons, List.length_cons]; omega

theorem parseTemplate_ok (ms : List Path) (r : List Tok) :
    parseTemplate (templateTokens ms ++ p "(" :: r) = some (ms, p "(" :: r) := by
  cases ms with
  | nil => simp [templateTokens, parseTemplate, eat, p, str]
  | cons q qs =>
    have hs : NoScope ((qs.flatMap fun q => p "," :: q.tokens) ++ p ">" :: p "(" :: r) := by
      cases qs with
      | nil => exact noScope_p _ (by decide)
      | cons q' qs => exact noScope_p _ (by decide)
    have := more_length qs
    simp only [templateTokens, List.cons_ne_nil, if_false, commaTokens_eq, parseTemplate, List.append_assoc, List.cons_append,
      List.nil_append, eat_cons, parsePath_ok q hs, Option.bind_some]
    rw [parseMore_ok qs _ _ (by simp only [List.length_append, List.length_cons]; omega)]
    rfl

/-! ## The parser -/

mutual
def parseExpr : Nat → List Tok → Option (Expr × List Tok)
  | 0, _ => none
  | n + 1, toks =>
    match toks with
    | .text s _ :: r => some (.text s, r)
    | .number s :: r => some (.number false s, r)
    | .keyword k :: r =>
      if k = str "true" then some (.boolean true, r)
      else if k = str "false" then some (.boolean false, r)
      else (eat (p "<") r).bind parsePath |>.bind fun q => (eat (p ">") q.2).bind (eat (p "(")) |>.bind (parseExpr n)
        |>.bind fun e => (eat (p ")") e.2).map fun r => (.staticCast q.1 e.1, r)
    | .punct c :: r =>
      if c = str "-" then
        match r with
        | .number s :: r => some (.number true s, r)
        | _ => none
      else if c = str "(" then
        (parseExpr n r).bind fun x => (eat (p "?") x.2).bind (parseExpr n) |>.bind fun y =>
          (eat (p ":") y.2).bind (parseExpr n) |>.bind fun z => (eat (p ")") z.2).map fun r => (.cond x.1 y.1 z.1, r)
      else if c = str "[" then
        (((eat (p "]") r).bind (eat (p "("))).bind (eat (p ")"))).bind (eat (p "{")) |>.bind (parseBody n) |>.bind fun b =>
          (eat (p "(") b.2).bind (eat (p ")")) |>.map fun r => (.invoke b.1, r)
      else (parseArgs n (p "}") r).map fun es => (.braces es.1, es.2)
    | .word w :: r =>
      match parsePath (.word w :: r) with
      | none => none
      | some (q, r) =>
        match eat (p "(") r with
        | some r => (parseArgs n (p ")") r).map fun es => (.call q es.1, es.2)
        | none =>
          match eat (p "<") r with
          | some r =>
            (parsePath r).bind fun t => (eat (p ">") t.2).bind (eat (p "::")) |>.bind fun r =>
              match r with
              | .word f :: r =>
                (parseTemplate r).bind fun ms => (eat (p "(") ms.2).bind (parseArgs n (p ")")) |>.map fun es =>
                  (.template q t.1 f ms.1 es.1, es.2)
              | _ => none
          | none =>
            match eat (p ".") r with
            | some r =>
              match r with
              | .word m :: r =>
                match parseTemplate r with
                | none => none
                | some ms =>
                  match eat (p "(") ms.2 with
                  | some r => (parseArgs n (p ")") r).map fun es => (.method q.head m ms.1.head? es.1, es.2)
                  | none => some (.member q.head m, r)
              | _ => none
            | none =>
              match eat (p "{") r with
              | some r => (parseArgs n (p "}") r).map fun es => (.init q es.1, es.2)
              | none => some (.name q, r)
    | [] => none
termination_by structural n => n
/-- Up to and with `close`. -/
def parseArgs : Nat → Tok → List Tok → Option (List Expr × List Tok)
  | 0, _, _ => none
  | n + 1, close, toks =>
    match eat close toks with
    | some r => some ([], r)
    | none => (parseExpr n toks).bind fun e => (parseArgsMore n close e.2).map fun es => (e.1 :: es.1, es.2)
termination_by structural n => n
def parseArgsMore : Nat → Tok → List Tok → Option (List Expr × List Tok)
  | 0, _, _ => none
  | n + 1, close, toks =>
    match eat close toks with
    | some r => some ([], r)
    | none => (eat (p ",") toks).bind (parseExpr n) |>.bind fun e =>
        (parseArgsMore n close e.2).map fun es => (e.1 :: es.1, es.2)
termination_by structural n => n
def parseStmt : Nat → List Tok → Option (Stmt × List Tok)
  | 0, _ => none
  | n + 1, toks =>
    match eat (kw "return") toks with
    | some r => (parseExpr n r).bind fun e => (eat (p ";") e.2).map fun r => (.ret e.1, r)
    | none =>
      match eat (kw "const") toks with
      | some r =>
        match eat (kw "auto") r with
        | some (.word x :: r) => (eat (p "=") r).bind (parseExpr n) |>.bind fun e => (eat (p ";") e.2).map fun r => (.auto true x e.1, r)
        | _ => none
      | none =>
        match eat (kw "auto") toks with
        | some (.word x :: r) => (eat (p "=") r).bind (parseExpr n) |>.bind fun e => (eat (p ";") e.2).map fun r => (.auto false x e.1, r)
        | some _ => none
        | none =>
          match parsePath toks with
          | some (q, .word x :: r) =>
            match eat (p "(") r with
            | some r => (parseExpr n r).bind fun e => (eat (p ")") e.2).bind (eat (p ";")) |>.map fun r => (.varWith q x e.1, r)
            | none => (eat (p ";") r).map fun r => (.var q x, r)
          | some (q, r) =>
            match eat (p "=") r with
            | some r => (parseExpr n r).bind fun e => (eat (p ";") e.2).map fun r => (.assign q.head e.1, r)
            | none => (parseExpr n toks).bind fun e => (eat (p ";") e.2).map fun r => (.expr e.1, r)
          | none => (parseExpr n toks).bind fun e => (eat (p ";") e.2).map fun r => (.expr e.1, r)
termination_by structural n => n
/-- Up to and with `}`. -/
def parseBody : Nat → List Tok → Option (List Stmt × List Tok)
  | 0, _ => none
  | n + 1, toks =>
    match eat (p "}") toks with
    | some r => some ([], r)
    | none => (parseStmt n toks).bind fun s => (parseBody n s.2).map fun ss => (s.1 :: ss.1, ss.2)
termination_by structural n => n
end

/-! ## It finds what was written -/

mutual
/-- A number of steps. -/
def Expr.size : Expr → Nat
  | .call _ args | .template _ _ _ _ args | .method _ _ _ args | .braces args | .init _ args => Expr.listSize args + 1
  | .staticCast _ e => e.size + 1
  | .cond c a b => c.size + a.size + b.size + 1
  | .invoke body => Stmt.listSize body + 1
  | _ => 1
termination_by structural x => x
def Expr.listSize : List Expr → Nat
  | [] => 1
  | e :: es => e.size + Expr.listSize es + 1
termination_by structural x => x
def Stmt.size : Stmt → Nat
  | .var _ _ => 1
  | .varWith _ _ e | .auto _ _ e | .assign _ e | .expr e | .ret e => e.size + 1
termination_by structural x => x
def Stmt.listSize : List Stmt → Nat
  | [] => 1
  | s :: ss => s.size + Stmt.listSize ss + 1
termination_by structural x => x
end

/-- What can come after an expression. -/
inductive Follow : List Tok → Prop where
  | nil : Follow []
  | comma {r} : Follow (p "," :: r)
  | paren {r} : Follow (p ")" :: r)
  | brace {r} : Follow (p "}" :: r)
  | semi {r} : Follow (p ";" :: r)
  | question {r} : Follow (p "?" :: r)
  | colon {r} : Follow (p ":" :: r)

theorem Follow.noScope {r : List Tok} (h : Follow r) : NoScope r := by
  intro rest e
  subst e
  generalize hx : p "::" :: rest = w at h
  cases h <;> simp [p, str] at hx

theorem Follow.eats {r : List Tok} (h : Follow r) :
    eat (p "(") r = none ∧ eat (p "<") r = none ∧ eat (p ".") r = none ∧ eat (p "=") r = none ∧
      eat (p "{") r = none := by
  cases h <;> simp [eat, p, str]

theorem Follow.template {r : List Tok} (h : Follow r) : parseTemplate r = some ([], r) := by
  simp [parseTemplate, h.eats]

theorem pt_ne {a b : String} (h : str a ≠ str b) (r : List Tok) : eat (p a) (p b :: r) = none := by
  simp [eat, p, Ne.symm h]

@[simp] theorem eat_word_p (a : String) (w : Str) (r : List Tok) : eat (p a) (.word w :: r) = none := by simp [eat, p]
@[simp] theorem eat_word_kw (a : String) (w : Str) (r : List Tok) : eat (kw a) (.word w :: r) = none := by simp [eat, kw]
@[simp] theorem eat_p_kw (a b : String) (r : List Tok) : eat (kw a) (p b :: r) = none := by simp [eat, kw, p]
@[simp] theorem eat_text_p (a : String) (s : Str) (v : Bool) (r : List Tok) : eat (p a) (.text s v :: r) = none := by simp [eat, p]
@[simp] theorem eat_number_p (a : String) (s : Str) (r : List Tok) : eat (p a) (.number s :: r) = none := by simp [eat, p]
@[simp] theorem eat_text_kw (a : String) (s : Str) (v : Bool) (r : List Tok) : eat (kw a) (.text s v :: r) = none := by simp [eat, kw]
@[simp] theorem eat_number_kw (a : String) (s : Str) (r : List Tok) : eat (kw a) (.number s :: r) = none := by simp [eat, kw]
@[simp] theorem eat_kw_p (a b : String) (r : List Tok) : eat (p a) (kw b :: r) = none := by simp [eat, kw, p]

/-- The first tokens of an expression are not those which end a list or begin another kind of statement. -/
theorem Expr.begins (e : Expr) (r : List Tok) :
    eat (p ")") (e.tokens ++ r) = none ∧ eat (p "}") (e.tokens ++ r) = none ∧ eat (kw "return") (e.tokens ++ r) = none ∧
    eat (kw "const") (e.tokens ++ r) = none ∧ eat (kw "auto") (e.tokens ++ r) = none := by
  cases e with
  | boolean b => cases b <;> simp [Expr.tokens, eat, p, kw, str]
  | number b => cases b <;> simp [Expr.tokens, eat, p, kw, str]
  | _ => simp [Expr.tokens, Path.tokens, eat, p, kw, str]

theorem Stmt.begins (s : Stmt) (r : List Tok) : eat (p "}") (s.tokens ++ r) = none := by
  cases s with
  | expr e =>
    have := (Expr.begins e (p ";" :: r)).2.1
    simpa [Stmt.tokens] using this
  | auto c x e => cases c <;> simp [Stmt.tokens]
  | _ => simp [Stmt.tokens, Path.tokens]

theorem follow_more (es : List Expr) {t : Tok} (ht : t = p ")" ∨ t = p "}") (r : List Tok) :
    Follow (Expr.moreTokens es ++ t :: r) := by
  cases es with
  | nil => rcases ht with rfl | rfl <;> constructor
  | cons e es => simpa [Expr.moreTokens] using Follow.comma

theorem path_head (q : Path) : ∃ w r, q.tokens = .word w :: r := ⟨_, _, rfl⟩

/-- An expression which begins with a name. -/
theorem parseExpr_path (n : Nat) (q : Path) {r : List Tok} (h : NoScope r) :
    parseExpr (n + 1) (q.tokens ++ r) =
      match eat (p "(") r with
        | some r => (parseArgs n (p ")") r).map fun es => (.call q es.1, es.2)
        | none =>
          match eat (p "<") r with
          | some r =>
            (parsePath r).bind fun t => (eat (p ">") t.2).bind (eat (p "::")) |>.bind fun r =>
              match r with
              | .word f :: r =>
                (parseTemplate r).bind fun ms => (eat (p "(") ms.2).bind (parseArgs n (p ")")) |>.map fun es =>
                  (.template q t.1 f ms.1 es.1, es.2)
              | _ => none
          | none =>
            match eat (p ".") r with
            | some r =>
              match r with
              | .word m :: r =>
                match parseTemplate r with
                | none => none
                | some ms =>
                  match eat (p "(") ms.2 with
                  | some r => (parseArgs n (p ")") r).map fun es => (.method q.head m ms.1.head? es.1, es.2)
                  | none => some (.member q.head m, r)
              | _ => none
            | none =>
              match eat (p "{") r with
              | some r => (parseArgs n (p "}") r).map fun es => (.init q es.1, es.2)
              | none => some (.name q, r) := by
  have := parsePath_ok q h
  obtain ⟨w, u, hq⟩ := path_head q
  rw [hq, List.cons_append] at this ⊢
  unfold parseExpr
  simp only [this]

mutual
theorem parseExpr_ok (e : Expr) {r : List Tok} (hr : Follow r) (n : Nat) (hn : e.size ≤ n) :
    parseExpr n (e.tokens ++ r) = some (e, r) := by
  obtain ⟨n, rfl⟩ : ∃ m, n = m + 1 := ⟨n - 1, by cases e <;> simp [Expr.size] at hn <;> omega⟩
  match e with
  | .name q => simp [Expr.tokens, parseExpr_path n q hr.noScope, hr.eats]
  | .text s => simp [Expr.tokens, parseExpr]
  | .number b s => cases b <;> simp [Expr.tokens, parseExpr, p]
  | .boolean b => cases b <;> simp [Expr.tokens, parseExpr, kw, str]
  | .member x m =>
    have := parseExpr_path n (word x) (r := p "." :: .word m :: r) (noScope_p _ (by decide))
    simp only [word, Path.tokens, List.flatMap_nil, List.cons_append, List.nil_append] at this
    simp only [Expr.tokens, List.cons_append, List.nil_append, this]
    simp [hr.template, hr.eats, pt_ne (a := "(") (b := ".") (by decide), pt_ne (a := "<") (b := ".") (by decide)]
  | .call f args =>
    simp only [Expr.size] at hn
    have := parseArgs_ok args (t := p ")") (Or.inl rfl) r n (by omega)
    simp [Expr.tokens, parseExpr_path n f (r := p "(" :: _) (noScope_p _ (by decide)), this]
  | .template c t f ms args =>
    simp only [Expr.size] at hn
    have := parseArgs_ok args (t := p ")") (Or.inl rfl) r n (by omega)
    simp [Expr.tokens, parseExpr_path n c (r := p "<" :: _) (noScope_p _ (by decide)), pt_ne (a := "(") (b := "<") (by decide),
      parsePath_ok t (r := p ">" :: _) (noScope_p _ (by decide)), parseTemplate_ok, this]
  | .method x m t args =>
    simp only [Expr.size] at hn
    have h1 := parseArgs_ok args (t := p ")") (Or.inl rfl) r n (by omega)
    have := parseExpr_path n (word x) (r := p "." :: .word m :: (templateTokens t.toList ++ p "(" :: (Expr.listTokens args ++ p ")" :: r)))
      (noScope_p _ (by decide))
    simp only [word, Path.tokens, List.flatMap_nil, List.cons_append, List.nil_append] at this
    simp only [Expr.tokens, List.cons_append, List.nil_append, List.append_assoc, this]
    cases t <;>
      simp [h1, parseTemplate_ok, pt_ne (a := "(") (b := ".") (by decide), pt_ne (a := "<") (b := ".") (by decide)]
  | .staticCast t x =>
    simp only [Expr.size] at hn
    have h1 := parseExpr_ok x (r := p ")" :: r) .paren n (by omega)
    simp [Expr.tokens, parseExpr, kw, str, parsePath_ok t (r := p ">" :: _) (noScope_p _ (by decide)), h1]
  | .cond c a b =>
    simp only [Expr.size] at hn
    have h1 := parseExpr_ok c (r := p "?" :: (a.tokens ++ p ":" :: (b.tokens ++ p ")" :: r))) .question n (by omega)
    have h2 := parseExpr_ok a (r := p ":" :: (b.tokens ++ p ")" :: r)) .colon n (by omega)
    have h3 := parseExpr_ok b (r := p ")" :: r) .paren n (by omega)
    have e1 : str "(" ≠ str "-" := by decide
    simp only [p] at h1 h2 h3
    simp [Expr.tokens, parseExpr, e1, h1, h2, h3, p]
  | .invoke body =>
    simp only [Expr.size] at hn
    have h1 := parseBody_ok body (p "(" :: p ")" :: r) n (by omega)
    have e1 : str "[" ≠ str "-" := by decide
    have e2 : str "[" ≠ str "(" := by decide
    simp only [p] at h1
    simp [Expr.tokens, parseExpr, e1, e2, p, h1]
  | .braces es =>
    simp only [Expr.size] at hn
    have h1 := parseArgs_ok es (t := p "}") (Or.inr rfl) r n (by omega)
    have e1 : str "{" ≠ str "-" := by decide
    have e2 : str "{" ≠ str "(" := by decide
    have e3 : str "{" ≠ str "[" := by decide
    simp only [p] at h1
    simp [Expr.tokens, parseExpr, e1, e2, e3, p, h1]
  | .init t es =>
    simp only [Expr.size] at hn
    have h1 := parseArgs_ok es (t := p "}") (Or.inr rfl) r n (by omega)
    simp [Expr.tokens, parseExpr_path n t (r := p "{" :: _) (noScope_p _ (by decide)), h1, pt_ne (a := "(") (b := "{") (by decide),
      pt_ne (a := "<") (b := "{") (by decide), pt_ne (a := ".") (b := "{") (by decide)]
theorem parseArgs_ok (es : List Expr) {t : Tok} (ht : t = p ")" ∨ t = p "}") (r : List Tok) (n : Nat) (hn : Expr.listSize es ≤ n) :
    parseArgs n t (Expr.listTokens es ++ t :: r) = some (es, r) := by
  obtain ⟨n, rfl⟩ : ∃ m, n = m + 1 := ⟨n - 1, by cases es <;> simp [Expr.listSize] at hn <;> omega⟩
  match es with
  | [] => simp [Expr.listTokens, parseArgs]
  | e :: es =>
    simp only [Expr.listSize] at hn
    have h0 : eat t (e.tokens ++ (Expr.moreTokens es ++ t :: r)) = none := by
      rcases ht with rfl | rfl
      · exact (Expr.begins e _).1
      · exact (Expr.begins e _).2.1
    simp [Expr.listTokens, parseArgs, h0, parseExpr_ok e (follow_more es ht r) n (by omega),
      parseArgsMore_ok es ht r n (by omega)]
theorem parseArgsMore_ok (es : List Expr) {t : Tok} (ht : t = p ")" ∨ t = p "}") (r : List Tok) (n : Nat)
    (hn : Expr.listSize es ≤ n) :
    parseArgsMore n t (Expr.moreTokens es ++ t :: r) = some (es, r) := by
  obtain ⟨n, rfl⟩ : ∃ m, n = m + 1 := ⟨n - 1, by cases es <;> simp [Expr.listSize] at hn <;> omega⟩
  match es with
  | [] => simp [Expr.moreTokens, parseArgsMore]
  | e :: es =>
    simp only [Expr.listSize] at hn
    have h0 : ∀ u, eat t (p "," :: u) = none := by
      intro u; rcases ht with rfl | rfl <;> exact pt_ne (by decide) _
    simp [Expr.moreTokens, parseArgsMore, h0, parseExpr_ok e (follow_more es ht r) n (by omega),
      parseArgsMore_ok es ht r n (by omega)]
theorem parseStmt_ok (s : Stmt) (r : List Tok) (n : Nat) (hn : s.size ≤ n) :
    parseStmt n (s.tokens ++ r) = some (s, r) := by
  obtain ⟨n, rfl⟩ : ∃ m, n = m + 1 := ⟨n - 1, by cases s <;> simp [Stmt.size] at hn <;> omega⟩
  match s with
  | .var t x =>
    have h := parsePath_ok t (r := .word x :: p ";" :: r) (by intro rest e; simp [p] at e)
    obtain ⟨w, u, hq⟩ := path_head t
    simp only [Stmt.tokens, List.append_assoc, List.cons_append, List.nil_append, hq] at h ⊢
    simp [parseStmt, h, pt_ne (a := "(") (b := ";") (by decide)]
  | .varWith t x e =>
    simp only [Stmt.size] at hn
    have h1 := parseExpr_ok e (r := p ")" :: p ";" :: r) .paren n (by omega)
    have h := parsePath_ok t (r := .word x :: p "(" :: (e.tokens ++ p ")" :: p ";" :: r)) (by intro rest e; simp [p] at e)
    obtain ⟨w, u, hq⟩ := path_head t
    simp only [Stmt.tokens, List.append_assoc, List.cons_append, List.nil_append, hq] at h ⊢
    simp [parseStmt, h, h1]
  | .auto c x e =>
    simp only [Stmt.size] at hn
    have h1 := parseExpr_ok e (r := p ";" :: r) .semi n (by omega)
    have e1 : ∀ u, eat (kw "return") (kw "const" :: u) = none := by simp [eat, kw, str]
    have e2 : ∀ u, eat (kw "return") (kw "auto" :: u) = none := by simp [eat, kw, str]
    have e3 : ∀ u, eat (kw "const") (kw "auto" :: u) = none := by simp [eat, kw, str]
    cases c <;> simp [Stmt.tokens, parseStmt, h1, e1, e2, e3]
  | .assign x e =>
    simp only [Stmt.size] at hn
    have h1 := parseExpr_ok e (r := p ";" :: r) .semi n (by omega)
    have h := parsePath_ok (word x) (r := p "=" :: (e.tokens ++ p ";" :: r)) (noScope_p _ (by decide))
    simp only [word, Path.tokens, List.flatMap_nil, List.cons_append, List.nil_append] at h
    simp [Stmt.tokens, parseStmt, h, h1, p] 
    simp [p] at h h1
    simp [h, h1]
  | .expr e =>
    simp only [Stmt.size] at hn
    have h1 := parseExpr_ok e (r := p ";" :: r) .semi n (by omega)
    have hb := Expr.begins e (p ";" :: r)
    have key : ∀ q u, parsePath (e.tokens ++ p ";" :: r) = some (q, u) → (∀ x v, u ≠ .word x :: v) ∧ eat (p "=") u = none := by
      intro q u hp
      have hpath : ∀ (q' : Path) (v : List Tok), NoScope v → e.tokens ++ p ";" :: r = q'.tokens ++ v → u = v := by
        intro q' v hv he
        rw [he, parsePath_ok q' hv] at hp
        simp at hp; exact hp.2.symm
      cases e with
      | name q' =>
        have := hpath q' (p ";" :: r) (noScope_p _ (by decide)) (by simp [Expr.tokens])
        subst this; exact ⟨by simp [p], pt_ne (by decide) _⟩
      | member x m =>
        have := hpath (word x) (p "." :: _) (noScope_p _ (by decide)) (by simp only [Expr.tokens, word, Path.tokens]; rfl)
        subst this; exact ⟨by simp [p], pt_ne (by decide) _⟩
      | method x m t args =>
        have := hpath (word x) (p "." :: _) (noScope_p _ (by decide)) (by simp only [Expr.tokens, word, Path.tokens, List.cons_append]; rfl)
        subst this; exact ⟨by simp [p], pt_ne (by decide) _⟩
      | call f args =>
        have := hpath f (p "(" :: _) (noScope_p _ (by decide)) (by simp only [Expr.tokens, List.append_assoc, List.cons_append]; rfl)
        subst this; exact ⟨by simp [p], pt_ne (by decide) _⟩
      | template c t f ms args =>
        have := hpath c (p "<" :: _) (noScope_p _ (by decide)) (by simp only [Expr.tokens, List.append_assoc, List.cons_append]; rfl)
        subst this; exact ⟨by simp [p], pt_ne (by decide) _⟩
      | init t args =>
        have := hpath t (p "{" :: _) (noScope_p _ (by decide)) (by simp only [Expr.tokens, List.append_assoc, List.cons_append]; rfl)
        subst this; exact ⟨by simp [p], pt_ne (by decide) _⟩
      | number b s => cases b <;> simp [Expr.tokens, parsePath, p] at hp
      | boolean b => cases b <;> simp [Expr.tokens, parsePath, kw] at hp
      | _ => simp [Expr.tokens, parsePath, p, kw] at hp
    simp only [Stmt.tokens, List.append_assoc, List.cons_append, List.nil_append, parseStmt, hb]
    split
    · rename_i q x u hp
      exact absurd rfl ((key _ _ hp).1 x u)
    · rename_i q u _ hp
      simp [(key _ _ hp).2, h1]
    · simp [h1]
  | .ret e =>
    simp only [Stmt.size] at hn
    have h1 := parseExpr_ok e (r := p ";" :: r) .semi n (by omega)
    simp [Stmt.tokens, parseStmt, h1]
theorem parseBody_ok (ss : List Stmt) (r : List Tok) (n : Nat) (hn : Stmt.listSize ss ≤ n) :
    parseBody n (Stmt.listTokens ss ++ p "}" :: r) = some (ss, r) := by
  obtain ⟨n, rfl⟩ : ∃ m, n = m + 1 := ⟨n - 1, by cases ss <;> simp [Stmt.listSize] at hn <;> omega⟩
  match ss with
  | [] => simp [Stmt.listTokens, parseBody]
  | s :: ss =>
    simp only [Stmt.listSize] at hn
    simp [Stmt.listTokens, parseBody, Stmt.begins, parseStmt_ok s _ n (by omega), parseBody_ok ss r n (by omega)]
end

/-! ## Uniqueness -/

theorem body_unique (a b : List Stmt) {r r' : List Tok}
    (h : Stmt.listTokens a ++ p "}" :: r = Stmt.listTokens b ++ p "}" :: r') : a = b ∧ r = r' := by
  have h1 := parseBody_ok a r (Stmt.listSize a + Stmt.listSize b) (by omega)
  have h2 := parseBody_ok b r' (Stmt.listSize a + Stmt.listSize b) (by omega)
  rw [h, h2] at h1
  simp at h1
  exact ⟨h1.1.symm, h1.2.symm⟩

theorem ReadsBody.unique {text : Str} {a b : List Stmt} (ha : ReadsBody text a) (hb : ReadsBody text b) : a = b := by
  have h := Lexes.unique ha hb
  exact (body_unique a b (r := []) (r' := []) (by rw [h])).1

theorem function_unique (f g : Function) {r r' : List Tok} (h : f.tokens ++ r = g.tokens ++ r') : f = g ∧ r = r' := by
  obtain ⟨a1, a2, a3, a4, a5, a6, a7⟩ := f
  obtain ⟨b1, b2, b3, b4, b5, b6, b7⟩ := g
  simp only [Function.tokens, List.append_assoc, List.cons_append, List.nil_append, List.cons.injEq, true_and] at h
  have nw : ∀ (q : Path) (u : List Tok), NoScope (q.tokens ++ u) := by
    intro q u rest e
    simp [Path.tokens, p] at e
  obtain ⟨rfl, h1⟩ := path_unique a1 b1 (nw _ _) (nw _ _) h
  obtain ⟨rfl, h2⟩ := path_unique a2 b2 (r := p "<" :: _) (r' := p "<" :: _) (noScope_p _ (by decide)) (noScope_p _ (by decide)) h1
  simp only [List.cons.injEq, true_and] at h2
  obtain ⟨rfl, h3⟩ := path_unique a3 b3 (r := p ">" :: _) (r' := p ">" :: _) (noScope_p _ (by decide)) (noScope_p _ (by decide)) h2
  simp only [List.cons.injEq, true_and, Tok.word.injEq] at h3
  obtain ⟨rfl, h4⟩ := h3
  obtain ⟨rfl, h5⟩ := path_unique a5 b5 (r := p "&" :: _) (r' := p "&" :: _) (noScope_p _ (by decide)) (noScope_p _ (by decide)) h4
  simp only [List.cons.injEq, true_and, Tok.word.injEq] at h5
  obtain ⟨rfl, h6⟩ := h5
  obtain ⟨rfl, h7⟩ := body_unique a7 b7 h6
  exact ⟨rfl, h7⟩

theorem functions_unique (a b : List Function) (h : a.flatMap Function.tokens = b.flatMap Function.tokens) : a = b := by
  induction a generalizing b with
  | nil =>
    cases b with
    | nil => rfl
    | cons g b => simp [Function.tokens] at h
  | cons f a ih =>
    cases b with
    | nil => simp [Function.tokens] at h
    | cons g b =>
      simp only [List.flatMap_cons] at h
      obtain ⟨rfl, h1⟩ := function_unique f g h
      rw [ih b h1]

theorem ReadsFunctions.unique {text : Str} {a b : List Function} (ha : ReadsFunctions text a) (hb : ReadsFunctions text b) :
    a = b := functions_unique a b (Lexes.unique ha hb)

end Verif.Cpp.Code
