import Verif.Gen.Names
import Mathlib.Data.List.Basic

/-!
# C43: C++ names and namespaces of generated code
-/
namespace Verif.Gen
open Verif.Value Verif.Text

/-! ## Specification -/

/-- C++ reserves names with `__`, and names which begin with `_` and a capital letter. -/
def Reserved (n : Str) : Prop :=
  (∃ pre post, n = pre ++ str "__" ++ post) ∨ ∃ c post, n = str "_" ++ c :: post ∧ 0x41 ≤ c.toNat ∧ c.toNat ≤ 0x5A

/-- Without the `_`. -/
def withoutUnderscores (n : Str) : Str := n.filter fun c => c != 0x5F

/-- The namespaces which are open, innermost first, before and after the events: a namespace is only closed if it is the
innermost one. -/
inductive Matched : List Str → List Event → List Str → Prop where
  | nil {stack} : Matched stack [] stack
  | other {stack t es stack'} : Matched stack es stack' → Matched stack (.other t :: es) stack'
  | open {stack n es stack'} : Matched (n :: stack) es stack' → Matched stack (.open n :: es) stack'
  | close {stack n es stack'} : Matched stack es stack' → Matched (n :: stack) (.close n :: es) stack'

/-- The number of open namespaces before and after the events; it never gets negative. -/
inductive Braces : Nat → List Event → Nat → Prop where
  | nil {n} : Braces n [] n
  | other {n t es m} : Braces n es m → Braces n (.other t :: es) m
  | open {n x es m} : Braces (n + 1) es m → Braces n (.open x :: es) m
  | close {n x es m} : Braces n es m → Braces (n + 1) (.close x :: es) m

/-! ## Names -/

theorem hasMultiple_iff {n : Str} : hasMultiple n = true ↔ ∃ pre post, n = pre ++ str "__" ++ post := by
  have hu : str "__" = [underscore, underscore] := by decide
  rw [hu]
  induction n with
  | nil => simp [hasMultiple]
  | cons a s ih =>
    cases s with
    | nil =>
      simp only [hasMultiple, Bool.false_eq_true, false_iff]
      rintro ⟨pre, post, h⟩
      have := congrArg List.length h
      simp at this
      omega
    | cons b s =>
      simp only [hasMultiple, Bool.or_eq_true, Bool.and_eq_true, beq_iff_eq, ih]
      constructor
      · rintro (⟨rfl, rfl⟩ | ⟨pre, post, h⟩)
        · exact ⟨[], s, rfl⟩
        · exact ⟨a :: pre, post, by rw [h]; rfl⟩
      · rintro ⟨pre, post, h⟩
        cases pre with
        | nil => simp at h; exact .inl ⟨h.1, h.2.1⟩
        | cons x pre =>
          right
          simp only [List.cons_append, List.cons.injEq] at h
          exact ⟨pre, post, h.2⟩

theorem hasLeadingCapital_iff {n : Str} :
    hasLeadingCapital n = true ↔ ∃ c post, n = str "_" ++ c :: post ∧ 0x41 ≤ c.toNat ∧ c.toNat ≤ 0x5A := by
  have hu : str "_" = [underscore] := by decide
  rw [hu]
  match n with
  | [] => simp [hasLeadingCapital]
  | [a] => simp [hasLeadingCapital]
  | a :: b :: s =>
    simp only [hasLeadingCapital, isCapital, Bool.and_eq_true, beq_iff_eq, decide_eq_true_eq]
    constructor
    · rintro ⟨rfl, h⟩; exact ⟨b, s, rfl, h⟩
    · rintro ⟨c, post, h, hc⟩
      simp at h
      obtain ⟨rfl, rfl, rfl⟩ := h
      exact ⟨rfl, hc⟩

theorem reserved_iff {n : Str} : Reserved n ↔ (hasMultiple n || hasLeadingCapital n) = true := by
  simp [Reserved, hasMultiple_iff, hasLeadingCapital_iff]

/-- What `getSafeCppName` makes of a name, without the cache. -/
def safeName (n : Str) : Str :=
  if hasMultiple n || hasLeadingCapital n then replaceLeadingCapital (replaceMultiple false n) else n

/-- The cache has nothing but what the names give. -/
def SafeNames.Ok (c : SafeNames) : Prop := ∀ n m, c n = some m → m = safeName n

theorem getSafeCppName_eq {c : SafeNames} (hc : c.Ok) (n : Str) :
    (getSafeCppName c n).1 = safeName n ∧ (getSafeCppName c n).2.Ok := by
  unfold getSafeCppName
  split
  · rename_i m h; exact ⟨hc n m h, hc⟩
  · split
    · rename_i h
      refine ⟨by simp [safeName, h], ?_⟩
      intro k m hk
      by_cases hkn : k = n
      · subst hkn; simp at hk; rw [← hk]; simp [safeName, h]
      · simp only [Function.update_of_ne hkn] at hk; exact hc k m hk
    · rename_i h
      exact ⟨by simp [safeName, h], hc⟩

theorem getSafeCppNames_eq {c : SafeNames} (hc : c.Ok) (ns : List Str) :
    (getSafeCppNames c ns).1 = ns.map safeName ∧ (getSafeCppNames c ns).2.Ok := by
  induction ns generalizing c with
  | nil => exact ⟨rfl, hc⟩
  | cons n ns ih =>
    obtain ⟨h1, h2⟩ := getSafeCppName_eq hc n
    obtain ⟨h3, h4⟩ := ih h2
    exact ⟨by simp [getSafeCppNames, h1, h3], h4⟩

theorem multiple_cons {a : Byte} {s : Str} (ha : a ≠ underscore) : hasMultiple (a :: s) = hasMultiple s := by
  cases s with
  | nil => rfl
  | cons b s => simp [hasMultiple, ha]

/-- After collapsing there is no `__`, and (after a `_`) no `_` at the beginning. -/
theorem replaceMultiple_spec (after : Bool) (n : Str) :
    hasMultiple (replaceMultiple after n) = false ∧
    (after = true → (replaceMultiple after n).head? ≠ some underscore) := by
  induction n generalizing after with
  | nil => simp [replaceMultiple, hasMultiple]
  | cons c s ih =>
    by_cases hc : c = underscore
    · subst hc
      cases after with
      | true => simpa [replaceMultiple] using ih true
      | false =>
        simp only [replaceMultiple, beq_self_eq_true, if_true, Bool.false_eq_true, if_false, false_implies, and_true]
        obtain ⟨h1, h2⟩ := ih true
        cases hs : replaceMultiple true s with
        | nil => rfl
        | cons b t =>
          rw [hs] at h1 h2
          simp only [List.head?_cons, ne_eq, Option.some.injEq, true_implies] at h2
          simp [hasMultiple, h2, h1]
    · simp only [replaceMultiple, beq_iff_eq, hc, if_false, List.head?_cons, ne_eq, Option.some.injEq, not_false_eq_true,
        implies_true, and_true]
      rw [multiple_cons hc]
      exact (ih false).1

theorem replaceMultiple_filter (after : Bool) (n : Str) :
    withoutUnderscores (replaceMultiple after n) = withoutUnderscores n := by
  induction n generalizing after with
  | nil => rfl
  | cons c s ih =>
    by_cases hc : c = underscore
    · subst hc
      cases after <;> simp [replaceMultiple, withoutUnderscores, underscore] <;> exact ih true
    · have : c ≠ 0x5F := hc
      simp only [replaceMultiple, beq_iff_eq, hc, if_false]
      simp only [withoutUnderscores, List.filter_cons, bne_iff_ne, ne_eq, this, not_false_eq_true, if_true, List.cons.injEq,
        true_and]
      exact ih false

theorem replaceMultiple_head (n : Str) : (replaceMultiple false n).head? = n.head? := by
  cases n with
  | nil => rfl
  | cons c s => by_cases hc : c = underscore <;> simp [replaceMultiple, hc]

theorem mem_replaceMultiple {after : Bool} {n : Str} {c : Byte} (h : c ∈ replaceMultiple after n) : c ∈ n := by
  induction n generalizing after with
  | nil => exact h
  | cons d s ih =>
    rw [replaceMultiple] at h
    split at h
    · split at h
      · exact List.mem_cons_of_mem _ (ih h)
      · rcases List.mem_cons.1 h with rfl | h
        · simp
        · exact List.mem_cons_of_mem _ (ih h)
    · rcases List.mem_cons.1 h with rfl | h
      · simp
      · exact List.mem_cons_of_mem _ (ih h)

theorem leading_cases (s : Str) :
    replaceLeadingCapital s = s ∧ hasLeadingCapital s = false ∨
    ∃ c t, s = underscore :: c :: t ∧ isCapital c = true ∧ replaceLeadingCapital s = c :: t := by
  match s with
  | [] => exact .inl ⟨rfl, rfl⟩
  | [a] => exact .inl ⟨rfl, rfl⟩
  | a :: b :: t =>
    by_cases h : a = underscore ∧ isCapital b = true
    · obtain ⟨rfl, h⟩ := h
      exact .inr ⟨b, t, rfl, h, by simp [replaceLeadingCapital, h]⟩
    · left
      simp only [replaceLeadingCapital, hasLeadingCapital, Bool.and_eq_true, beq_iff_eq, h, if_false, true_and]
      simpa using h

theorem capital_ne {c : Byte} (h : isCapital c = true) : c ≠ underscore := by
  rintro rfl
  revert h; decide

/-- **C43.** Every call gives the same C++ name for the same GraphQL name, whatever the names were before. -/
theorem C43_function (history : List Str) (n : Str) :
    (getSafeCppName (getSafeCppNames (fun _ => none) history).2 n).1 = (getSafeCppName (fun _ => none) n).1 := by
  have h0 : SafeNames.Ok fun _ => none := fun _ _ h => nomatch h
  rw [(getSafeCppName_eq (getSafeCppNames_eq h0 history).2 n).1, (getSafeCppName_eq h0 n).1]

/-- **C43.** The C++ name is not reserved, is a valid identifier if the GraphQL name is a name, has the same letters and
digits in the same order, and is the GraphQL name itself if this is not reserved. -/
theorem C43_names (history : List Str) (n : Str) :
    let cpp := (getSafeCppName (getSafeCppNames (fun _ => none) history).2 n).1
    ¬ Reserved cpp ∧ (IsName n → IsName cpp) ∧ withoutUnderscores cpp = withoutUnderscores n ∧
      (¬ Reserved n → cpp = n) := by
  have h0 : SafeNames.Ok fun _ => none := fun _ _ h => nomatch h
  simp only
  rw [(getSafeCppName_eq (getSafeCppNames_eq h0 history).2 n).1, reserved_iff, reserved_iff]
  unfold safeName
  split
  · rename_i h
    have hm := (replaceMultiple_spec false n).1
    have hf := replaceMultiple_filter false n
    have hh := replaceMultiple_head n
    have hmem := @mem_replaceMultiple false n
    refine ⟨?_, ?_, ?_, fun h' => absurd h h'⟩
    · rcases leading_cases (replaceMultiple false n) with ⟨e, hl⟩ | ⟨c, t, e, hc, e'⟩
      · rw [e, hm, hl]; simp
      · rw [e']
        have hne := capital_ne hc
        have h1 : hasMultiple (c :: t) = false := by
          rw [e] at hm
          simp only [hasMultiple, Bool.or_eq_false_iff] at hm
          exact hm.2
        have h2 : hasLeadingCapital (c :: t) = false := by
          cases t with
          | nil => rfl
          | cons d t => simp [hasLeadingCapital, hne]
        rw [h1, h2]; simp
    · rintro ⟨a, as, rfl, ha, has⟩
      have hall : ∀ c ∈ replaceMultiple false (a :: as), nameCont c = true := by
        intro c hc
        rcases List.mem_cons.1 (hmem hc) with rfl | hc
        · simp [nameCont, ha]
        · exact has c hc
      rcases leading_cases (replaceMultiple false (a :: as)) with ⟨e, _⟩ | ⟨c, t, e, hc, e'⟩
      · rw [e]
        cases hr : replaceMultiple false (a :: as) with
        | nil => rw [hr] at hh; simp at hh
        | cons b bs =>
          rw [hr] at hh hall
          simp only [List.head?_cons, Option.some.injEq] at hh
          subst hh
          exact ⟨b, bs, rfl, ha, fun d hd => hall d (List.mem_cons_of_mem _ hd)⟩
      · rw [e']
        rw [e] at hall
        refine ⟨c, t, rfl, ?_, fun d hd => hall d (by simp [hd])⟩
        simp only [isCapital, Bool.and_eq_true, decide_eq_true_eq] at hc
        simp [nameStart, hc]
    · rcases leading_cases (replaceMultiple false n) with ⟨e, hl⟩ | ⟨c, t, e, hc, e'⟩
      · rw [e]; exact hf
      · rw [e', ← hf, e]
        simp [withoutUnderscores, underscore]
  · rename_i h
    exact ⟨h, id, rfl, fun _ => rfl⟩

/-! ## Namespaces -/

theorem Matched.append {a b c : List Str} {es fs : List Event} (h : Matched a es b) (h' : Matched b fs c) :
    Matched a (es ++ fs) c := by
  induction h with
  | nil => exact h'
  | other _ ih => exact .other (ih h')
  | «open» _ ih => exact .open (ih h')
  | close _ ih => exact .close (ih h')

theorem Braces.append {a b c : Nat} {es fs : List Event} (h : Braces a es b) (h' : Braces b fs c) :
    Braces a (es ++ fs) c := by
  induction h with
  | nil => exact h'
  | other _ ih => exact .other (ih h')
  | «open» _ ih => exact .open (ih h')
  | close _ ih => exact .close (ih h')

/-- The number of scopes which are inside of their namespace. -/
def openCount (scopes : List NamespaceScope) : Nat := (scopes.filter (·.inside)).length

theorem braces_onScope {f : NamespaceScope → NamespaceScope × List Event}
    (hf : ∀ s n, Braces (n + if s.inside then 1 else 0) (f s).2 (n + if (f s).1.inside then 1 else 0)) (i : Nat)
    (scopes : List NamespaceScope) (n : Nat) :
    Braces (n + openCount scopes) (onScope f i scopes).2 (n + openCount (onScope f i scopes).1) ∧
    (onScope f i scopes).1.length = scopes.length := by
  induction scopes generalizing i n with
  | nil => cases i <;> exact ⟨.nil, rfl⟩
  | cons s rest ih =>
    cases i with
    | zero =>
      refine ⟨?_, by simp [onScope]⟩
      have := hf s (n + openCount rest)
      simp only [onScope]
      have e : ∀ t : NamespaceScope, n + openCount (t :: rest) = n + openCount rest + if t.inside then 1 else 0 := by
        intro t
        cases h : t.inside <;> simp [openCount, h]
        omega
      rw [e, e]
      exact this
    | succ i =>
      have := ih i (n + if s.inside then 1 else 0)
      refine ⟨?_, by simp [onScope, this.2]⟩
      simp only [onScope]
      have e : ∀ l : List NamespaceScope, n + openCount (s :: l) = n + (if s.inside then 1 else 0) + openCount l := by
        intro l
        cases h : s.inside <;> simp [openCount, h]
        omega
      rw [e, e]
      exact this.1

theorem braces_enter (s : NamespaceScope) (n : Nat) :
    Braces (n + if s.inside then 1 else 0) s.enter.2 (n + if s.enter.1.inside then 1 else 0) := by
  cases h : s.inside <;> simp [NamespaceScope.enter, h]
  · exact .open .nil
  · exact .nil

theorem braces_exit (s : NamespaceScope) (n : Nat) :
    Braces (n + if s.inside then 1 else 0) s.exit.2 (n + if s.exit.1.inside then 1 else 0) := by
  cases h : s.inside <;> simp [NamespaceScope.exit, h]
  · exact .nil
  · exact .close .nil

theorem onScope_last (scopes : List NamespaceScope) (s : NamespaceScope) (f : NamespaceScope → NamespaceScope × List Event) :
    onScope f scopes.length (scopes ++ [s]) = (scopes ++ [(f s).1], (f s).2) := by
  induction scopes with
  | nil => rfl
  | cons t ts ih => simp [onScope, ih]

theorem exit_inside (s : NamespaceScope) : s.exit.1.inside = false := by
  cases h : s.inside <;> simp [NamespaceScope.exit, h]

theorem openCount_append (a b : List NamespaceScope) : openCount (a ++ b) = openCount a + openCount b := by
  simp [openCount]

mutual
theorem stmt_braces (s : Stmt) (scopes : List NamespaceScope) :
    Braces (openCount scopes) (Stmt.run scopes s).2 (openCount (Stmt.run scopes s).1) ∧
    (Stmt.run scopes s).1.length = scopes.length := by
  match s with
  | .text t => exact ⟨.other .nil, rfl⟩
  | .enter i => simpa [Stmt.run] using braces_onScope braces_enter i scopes 0
  | .exit i => simpa [Stmt.run] using braces_onScope braces_exit i scopes 0
  | .scope name deferred body =>
    obtain ⟨h1, h2⟩ := all_braces body (scopes ++ [(NamespaceScope.make name deferred).1])
    simp only [Stmt.run]
    generalize hr : runAll (scopes ++ [(NamespaceScope.make name deferred).1]) body = ran at h1 h2
    obtain ⟨after, events⟩ := ran
    simp only at h1 h2
    have hl : after ≠ [] := by intro h; rw [h] at h2; simp at h2
    obtain ⟨init, last, rfl⟩ : ∃ init last, after = init ++ [last] :=
      ⟨_, _, (List.dropLast_append_getLast hl).symm⟩
    have hlen : init.length = scopes.length := by simpa using h2
    rw [← hlen, onScope_last]
    simp only [List.take_left']
    have hmake : Braces (openCount scopes) (NamespaceScope.make name deferred).2
        (openCount (scopes ++ [(NamespaceScope.make name deferred).1])) := by
      cases deferred <;> simp [NamespaceScope.make, NamespaceScope.enter, openCount]
      · exact .open .nil
      · exact .nil
    refine ⟨(hmake.append h1).append ?_, by simp⟩
    have := braces_exit last (openCount init)
    rw [exit_inside] at this
    simp only [Bool.false_eq_true, if_false, Nat.add_zero] at this
    rw [openCount_append]
    cases hi : last.inside <;> simpa [openCount, hi] using this
theorem all_braces (ss : List Stmt) (scopes : List NamespaceScope) :
    Braces (openCount scopes) (runAll scopes ss).2 (openCount (runAll scopes ss).1) ∧
    (runAll scopes ss).1.length = scopes.length := by
  match ss with
  | [] => exact ⟨.nil, rfl⟩
  | s :: rest =>
    obtain ⟨h1, h2⟩ := stmt_braces s scopes
    obtain ⟨h3, h4⟩ := all_braces rest (Stmt.run scopes s).1
    exact ⟨h1.append h3, h4.trans h2⟩
end

/-- **C43.** Whatever code uses the scopes, every namespace which it opens is closed at the end, and never one which is not
open. -/
theorem C43_closed (program : List Stmt) : Braces 0 (runAll [] program).2 0 := by
  obtain ⟨h1, h2⟩ := all_braces program []
  rw [List.length_nil, List.length_eq_zero_iff] at h2
  rw [h2] at h1
  exact h1

/-- **C43.** In every generated file the namespaces are closed innermost first. -/
theorem C43_namespaces (g : Shape) : ∀ file ∈ g.files, Matched [] (runAll [] file).2 [] := by
  obtain ⟨b1, b2, b3, b4, b5, b6, ns, cns, rns, t⟩ := g
  intro file hf
  simp only [Shape.files, List.mem_cons, List.not_mem_nil, or_false] at hf
  rcases hf with rfl | rfl | rfl | rfl | rfl | rfl
  · simp only [Shape.schemaHeader]
    cases b1 <;> cases b2 <;> cases b3 <;> cases b4 <;> cases b5 <;> cases b6 <;>
    · simp [when, runAll, Stmt.run, NamespaceScope.make, NamespaceScope.enter, NamespaceScope.exit, onScope]
      repeat constructor
  · simp only [Shape.schemaSource]
    cases b2 <;> cases b3 <;> cases b4 <;> cases b5 <;>
    · simp [when, runAll, Stmt.run, NamespaceScope.make, NamespaceScope.enter, NamespaceScope.exit, onScope]
      repeat constructor
  all_goals
    simp [Shape.objectHeader, Shape.objectSource, Shape.clientHeader, Shape.clientSource, runAll, Stmt.run,
      NamespaceScope.make, NamespaceScope.enter, NamespaceScope.exit, onScope]
    repeat constructor

/-- Specification: the text between the namespaces, each piece with the namespaces which are open there, the outermost
first. -/
def enclosed : List Str → List Event → List (List Str × Str)
  | _, [] => []
  | «open», .open name :: rest => enclosed («open» ++ [name]) rest
  | «open», .close _ :: rest => enclosed «open».dropLast rest
  | «open», .other text :: rest => («open», text) :: enclosed «open» rest

/-- A piece of text, if there is anything of its kind. -/
def piece (c : Bool) (namespaces : List Str) (text : Str) : List (List Str × Str) := if c then [(namespaces, text)] else []

/-- **C43.** In every generated file the declarations are in the namespaces where the other files look for them: enums, input
types and interfaces in the namespace of the schema, classes of objects in `object` within it, converters in
`graphql::service`, and the client's types and functions in the namespace of the request. -/
theorem C43_enclosed (g : Shape) :
    let schema := [str "graphql", g.schemaNamespace]
    let object := schema ++ [str "object"]
    let service := [str "graphql", str "service"]
    enclosed [] (runAll [] g.schemaHeader).2 =
      piece g.enums schema (g.text 0) ++ piece g.inputs schema (g.text 1) ++ piece g.objects object (g.text 2) ++
      piece g.interfaces schema (g.text 3) ++ piece (g.objects && !g.separateFiles) object (g.text 4) ++
      piece true schema (g.text 5) ++ piece (g.introspection && (g.enums || g.inputs)) service (g.text 6) ++
      piece (!g.introspection) schema (g.text 7) ∧
    enclosed [] (runAll [] g.schemaSource).2 =
      piece (g.enums || g.inputs) service (g.text 0) ++ piece (g.enums || g.inputs) [str "graphql"] (g.text 1) ++
      piece (g.objects && !g.separateFiles) object (g.text 2) ++ piece true schema (g.text 3) ∧
    enclosed [] (runAll [] g.objectHeader).2 = [([str "graphql::" ++ g.schemaNamespace ++ str "::object"], g.text 0)] ∧
    enclosed [] (runAll [] g.objectSource).2 =
      [([str "graphql::" ++ g.schemaNamespace, str "object"], g.text 0), ([str "graphql::" ++ g.schemaNamespace], g.text 1)] ∧
    enclosed [] (runAll [] g.clientHeader).2 = [([g.clientNamespace ++ str "::" ++ g.requestNamespace], g.text 0)] ∧
    enclosed [] (runAll [] g.clientSource).2 =
      [([g.clientNamespace], g.text 0), ([g.clientNamespace, g.requestNamespace], g.text 1)] := by
  obtain ⟨b1, b2, b3, b4, b5, b6, ns, cns, rns, t⟩ := g
  refine ⟨?_, ?_, ?_, ?_, ?_, ?_⟩
  · simp only [Shape.schemaHeader]
    cases b1 <;> cases b2 <;> cases b3 <;> cases b4 <;> cases b5 <;> cases b6 <;>
    simp [when, runAll, Stmt.run, NamespaceScope.make, NamespaceScope.enter, NamespaceScope.exit, onScope, enclosed, piece]
  · simp only [Shape.schemaSource]
    cases b2 <;> cases b3 <;> cases b4 <;> cases b5 <;>
    simp [when, runAll, Stmt.run, NamespaceScope.make, NamespaceScope.enter, NamespaceScope.exit, onScope, enclosed, piece]
  all_goals
    simp [Shape.objectHeader, Shape.objectSource, Shape.clientHeader, Shape.clientSource, runAll, Stmt.run,
      NamespaceScope.make, NamespaceScope.enter, NamespaceScope.exit, onScope, enclosed]

/-! ## Include guards -/

/-- **C43.** The macro of an include guard is a valid identifier if the name of the file is made of letters, digits, `_` and
`.`, and does not begin with a digit. -/
theorem C43_include_guard (fileName : Str)
    (h : ∃ c cs, fileName = c :: cs ∧ (nameStart c = true ∨ c = 0x2E) ∧ ∀ d ∈ cs, nameCont d = true ∨ d = 0x2E) :
    IsName (includeGuardName fileName) := by
  have key : ∀ c : Byte, (nameStart c = true ∨ c = 0x2E → nameStart (if c == 0x2E then underscore else toUpper c) = true) ∧
      (nameCont c = true ∨ c = 0x2E → nameCont (if c == 0x2E then underscore else toUpper c) = true) := by decide +kernel
  obtain ⟨c, cs, rfl, hc, hcs⟩ := h
  refine ⟨_, _, rfl, (key c).1 hc, ?_⟩
  intro d hd
  obtain ⟨e, he, rfl⟩ := List.mem_map.1 hd
  exact (key e).2 (hcs e he)

/-! ## Examples and findings -/

example : (getSafeCppName (fun _ => none) (str "__TypeKind")).1 = str "TypeKind" := by decide +kernel
example : (getSafeCppName (fun _ => none) (str "a___b__c_")).1 = str "a_b_c_" := by decide +kernel
example : IsName (str "__TypeKind") := ⟨_, _, rfl, by decide +kernel, by decide +kernel⟩
example : includeGuardName (str "TodaySchema.h") = str "TODAYSCHEMA_H" := by decide +kernel

/-- A header with all the parts of `Shape.schemaHeader`. -/
example : (runAll [] (Shape.schemaHeader ⟨true, false, true, true, true, true, str "s", [], [], fun _ => []⟩)).2.filterMap
    (fun | .open n => some (true, n) | .close n => some (false, n) | .other _ => none) =
    [(true, str "graphql"), (true, str "s"), (true, str "object"), (false, str "object"), (true, str "object"),
     (false, str "object"), (false, str "s"), (true, str "service"), (false, str "service"), (false, str "graphql")] := by
  decide +kernel

/-- Finding: different GraphQL names can have the same C++ name. -/
theorem C43_not_injective :
    (getSafeCppName (fun _ => none) (str "_Type")).1 = (getSafeCppName (fun _ => none) (str "Type")).1 := by decide +kernel

/-- Finding: keywords of C++ are left as they are. -/
theorem C43_keyword : (getSafeCppName (fun _ => none) (str "class")).1 = str "class" := by decide +kernel

/-- Finding: the macro of the include guard need not be an identifier. -/
theorem C43_include_guard_invalid : includeGuardName (str "my-schema.h") = str "MY-SCHEMA_H" ∧
    ¬ IsName (str "MY-SCHEMA_H") := by
  refine ⟨by decide +kernel, ?_⟩
  rintro ⟨c, cs, h, _, hcs⟩
  have h : str "MY-SCHEMA_H" = c :: cs := h
  have e : cs = (str "MY-SCHEMA_H").tail := by rw [h]; rfl
  have : ¬ ∀ d ∈ (str "MY-SCHEMA_H").tail, nameCont d = true := by decide +kernel
  exact this (e ▸ hcs)

end Verif.Gen
