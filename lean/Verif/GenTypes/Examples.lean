import Verif.GenTypes.Claims
import Verif.GenCode.Examples

/-!
# C75: an example, and what goes wrong for other names
-/
namespace Verif.GenTypes
open Verif.Value Verif.Resp Verif.Errors Verif.Text Verif.GenCode
open Verif.Gen (InputField InputType EnumType Ordered reorderInputTypes)
open Verif.Gen.Service (Types)
open Verif.Gen.Client (Data)
open Verif.GenText (cpp IsNamespace nameB_ok)
open Verif.Modifiers (Mod Arg)
open Verif.Cpp (Path path word keywords)
open Verif.Cpp.Code (CType Member TypeDecl ServiceDecl ReadsTypes ReadsService)

/-! ## An example -/

def size : EnumType := { type := str "Size", values := [{ value := str "SMALL" }, { value := str "Large" }, { value := str "small" }] }
def color : EnumType := { type := str "_Color", values := [{ value := str "RED" }] }

def point : InputType where
  type := str "Point"
  fields := [{ type := str "Int", name := str "x" }, { type := str "_Color", name := str "my__color", fieldType := .enum, modifiers := [.nullable] }]

def filter : InputType where
  type := str "Filter"
  fields :=
    [{ type := str "Size", name := str "sizes", fieldType := .enum, modifiers := [.nullable, .list] },
     { type := str "Point", name := str "points", fieldType := .input, modifiers := [.list, .nullable] },
     { type := str "Any", name := str "any", fieldType := .scalar }]

/-- Two enums and two input objects, in the order in which they are written. -/
def demo : Types := ⟨[size, color], [point, filter]⟩

theorem demo_types : TypesOk print read demo nsPath where
  namespace' := by decide
  name := by
    intro i hi
    simp only [demo, List.mem_cons, List.not_mem_nil, or_false] at hi
    rcases hi with rfl | rfl <;> exact ⟨nameB_ok (by decide +kernel), by decide +kernel⟩
  fields := by
    intro i hi
    simp only [demo, List.mem_cons, List.not_mem_nil, or_false] at hi
    rcases hi with rfl | rfl <;>
    · refine fieldsB_ok (by decide +kernel) fun f hf => ?_
      simp only [point, filter, List.mem_cons, List.not_mem_nil, or_false] at hf
      rcases hf with rfl | rfl | rfl <;> simp [DefaultOk]
  known := by
    intro i hi f hf
    simp only [demo, List.mem_cons, List.not_mem_nil, or_false] at hi
    rcases hi with rfl | rfl <;> simp only [point, filter, List.mem_cons, List.not_mem_nil, or_false] at hf
    · rcases hf with rfl | rfl <;> simp [TypeKnown, demo, color]
    · rcases hf with rfl | rfl | rfl <;> simp [TypeKnown, demo, size, point]
  distinct := by decide +kernel

/-- A boolean version of `HeaderOk`. -/
def headerB (T : Types) : Bool :=
  T.enums.all (fun e => GenText.nameB e.type && decide (cpp e.type ∉ keywords) &&
    e.values.all (fun v => GenText.nameB v.value && decide (v.value ∉ keywords)) && decide (e.values.map (·.value)).Nodup) &&
  T.inputs.all (fun i => i.fields.all (fun f => decide (cpp f.name ∉ keywords)) && decide (i.fields.map fun f => cpp f.name).Nodup &&
    i.fields.all (fun f => decide (f.fieldType = .enum ∨ f.fieldType = .input → cpp f.type ∉ i.fields.map fun f => cpp f.name)))

theorem headerB_ok {T : Types} (h : headerB T = true) : HeaderOk T := by
  simp only [headerB, Bool.and_eq_true, List.all_eq_true, decide_eq_true_eq] at h
  exact ⟨fun e he => ⟨nameB_ok (h.1 e he).1.1.1, (h.1 e he).1.1.2⟩,
    fun e he v hv => ⟨nameB_ok ((h.1 e he).1.2 v hv).1, ((h.1 e he).1.2 v hv).2⟩, fun e he => (h.1 e he).2,
    fun i hi f hf => (h.2 i hi).1.1 f hf, fun i hi => (h.2 i hi).1.2,
    fun i hi f hf => (h.2 i hi).2 f hf⟩

theorem demo_header : HeaderOk demo := headerB_ok (by decide +kernel)

/-- The order is that of C42, for a document in which the input objects are the other way round. -/
theorem demo_order : Ordered (·.type) (·.needs) demo.inputs ∧
    (reorderInputTypes [filter, point]).toOption.map (·.map (·.type)) = some (demo.inputs.map (·.type)) := by
  constructor
  · intro pre x post h n hn
    obtain ⟨f, hf, hk, rfl⟩ := hn
    match pre, h with
    | [], h =>
      simp only [demo, List.nil_append, List.cons.injEq] at h
      rw [← h.1] at hf
      simp only [point, List.mem_cons, List.not_mem_nil, or_false] at hf
      rcases hf with rfl | rfl <;> simp at hk
    | [p], h =>
      simp only [demo, List.cons_append, List.nil_append, List.cons.injEq] at h
      rw [← h.2.1] at hf
      simp only [filter, List.mem_cons, List.not_mem_nil, or_false] at hf
      rcases hf with rfl | rfl | rfl
      · simp at hk
      · exact ⟨p, by simp, by rw [← h.1]; rfl⟩
      · simp at hk
    | _ :: _ :: pre, h =>
      have := congrArg List.length h
      simp [demo] at this
  · decide +kernel

/-- The example has the hypotheses of all the theorems: the code can be read, and it compiles. -/
theorem C75_example :
    ∃ hs ds, ReadsTypes (headerText demo) hs ∧ ReadsService (serviceText print (str "my::schema") demo) ds ∧ Compiles hs ∧
      enumerator hs (str "Size") 1 = some (str "Large") ∧
      members hs (str "Point") = some [⟨.name (path "response" ["IntType"]), str "x"⟩, ⟨.optional (.name (word (str "Color"))), str "my_color"⟩] ∧
      (∃ a r, argument ds (typePath nsPath (str "Size")) = some a ∧ result ds (typePath nsPath (str "Size")) = some r ∧
        a (.enumValue (str "small")) = .ok 2 ∧ a (.string (str "Large") true) = .ok 1 ∧ r 1 = .ok (.enumValue (str "Large")) ∧
        a (.string (str "Large") false) = .throws (.message (str "not a valid Size value")) ∧
        a (.enumValue (str "LARGE")) = .throws (.message (str "not a valid Size value"))) ∧
      convertAll read (structures demo nsPath) ds 1 (typePath nsPath (str "Point"))
          (.map [(str "x", .int 3), (str "my__color", .enumValue (str "RED"))]) =
        .ok (.object [(str "x", .leaf (.int 3)), (str "my__color", .some (.leaf (.enum 0)))]) := by
  obtain ⟨⟨hs, hh, -⟩, ds, hd, -⟩ := C75_code ns_ok demo_header demo_types
  have he : size ∈ demo.enums := by simp [demo]
  have en := C75_enumerators demo_header demo_types hh he
  obtain ⟨a, ha, ha'⟩ := C75_argument ns_ok demo_header demo_types hh hd he
  obtain ⟨r, hr, hr'⟩ := C75_result ns_ok demo_header demo_types hh hd he
  have e1 : enumerator hs (cpp size.type) 1 = some (str "Large") := (en 1).trans rfl
  refine ⟨hs, ds, hh, hd, C75_compiles demo_header demo_types hh demo_order.1, e1, ?_, ⟨a, r, ha, hr, ?_, ?_, hr' 1 _ e1, ?_, ?_⟩, ?_⟩
  · rw [hh.unique (reads_header demo_header demo_types)]
    rfl
  · exact ((ha' _).1 2).2 ⟨str "small", rfl, (en 2).trans rfl⟩
  · exact ((ha' _).1 1).2 ⟨str "Large", rfl, e1⟩
  · refine (ha' _).2 ?_
    rintro ⟨s, i, h, -⟩
    cases h
  · refine (ha' _).2 ?_
    rintro ⟨s, i, h1, h2⟩
    cases h1
    rw [en] at h2
    match i with
    | 0 => exact absurd h2 (by decide)
    | 1 => exact absurd h2 (by decide)
    | 2 => exact absurd h2 (by decide)
    | i + 3 => simp [size] at h2
  · exact (C75_convert ns_ok demo_header demo_types hd 1 { type := str "Point", name := str "p", fieldType := .input }
      ⟨point, by simp [demo], rfl⟩ _).trans rfl

/-! ## What goes wrong -/

/-- A structure with one field. -/
def single (f : InputField) : Types := ⟨[size], [{ type := str "Single", fields := [f] }]⟩

/-- The words of the language which are used in a header. -/
def usedType : Cpp.Tok → Bool
  | .keyword s => (["enum", "class", "struct"].map str).contains s
  | _ => true

theorem usedType_path (q : Path) : ∀ t ∈ q.tokens, usedType t = true := by
  intro t ht
  simp only [Path.tokens, List.mem_cons, List.mem_flatMap, List.not_mem_nil, or_false] at ht
  rcases ht with rfl | ⟨s, -, rfl | rfl⟩ <;> rfl

theorem usedType_append {a b : List Cpp.Tok} (ha : ∀ t ∈ a, usedType t = true) (hb : ∀ t ∈ b, usedType t = true) :
    ∀ t ∈ a ++ b, usedType t = true := by
  intro t ht
  rcases List.mem_append.1 ht with h | h
  · exact ha t h
  · exact hb t h

theorem usedType_lit {a : List Cpp.Tok} (h : a.all usedType = true) : ∀ t ∈ a, usedType t = true := List.all_eq_true.1 h

theorem usedType_type (t : CType) : ∀ x ∈ t.tokens, usedType x = true := by
  induction t with
  | name q => exact usedType_path q
  | optional t ih => exact usedType_append (usedType_append (usedType_append (usedType_path _) (usedType_lit (by decide))) ih) (usedType_lit (by decide))
  | shared t ih => exact usedType_append (usedType_append (usedType_append (usedType_path _) (usedType_lit (by decide))) ih) (usedType_lit (by decide))
  | vector t ih => exact usedType_append (usedType_append (usedType_append (usedType_path _) (usedType_lit (by decide))) ih) (usedType_lit (by decide))

theorem usedType_decl (d : TypeDecl) : ∀ x ∈ d.tokens, usedType x = true := by
  cases d with
  | enumClass n vs =>
    refine usedType_append (usedType_append (usedType_lit rfl) ?_) (usedType_lit (by decide))
    have : ∀ xs : List Str, ∀ t ∈ Cpp.commaTokens (xs.map fun v => [Cpp.Tok.word v]), usedType t = true := by
      intro xs
      induction xs with
      | nil => simp [Cpp.commaTokens]
      | cons x xs ih =>
        cases xs with
        | nil => exact usedType_lit rfl
        | cons y ys => exact usedType_append (usedType_lit rfl) (usedType_append (a := [Cpp.p ","]) (usedType_lit (by decide)) ih)
    exact this vs
  | struct n ms =>
    refine usedType_append (usedType_append (usedType_lit rfl) ?_) (usedType_lit (by decide))
    intro t ht
    obtain ⟨m, -, hm⟩ := List.mem_flatMap.1 ht
    exact usedType_append (usedType_type m.type) (usedType_lit rfl) t hm

/-- **Finding.** A field of an input object with the name `default` is written as it is: the code cannot be compiled. -/
theorem C75_keyword (hs : List TypeDecl) : ¬ ReadsTypes (headerText (single { type := str "Int", name := str "default" })) hs := by
  intro hr
  have hl : ∃ a, GenCode.lexAll 200 (headerText (single { type := str "Int", name := str "default" })) = some a ∧ a.all usedType = false := by
    refine ⟨_, rfl, ?_⟩
    decide +kernel
  obtain ⟨a, ha, hu⟩ := hl
  have := (GenCode.lexAll_ok ha).unique hr
  subst this
  simp only [List.all_eq_false] at hu
  obtain ⟨t, ht, hu⟩ := hu
  obtain ⟨d, -, hd⟩ := List.mem_flatMap.1 ht
  exact hu (usedType_decl d t hd)

/-- **Finding.** A field with the name of its type, here `Size: Size!`, is written as `Size Size;`: the code can be read, but a name which
is used must not get another meaning in the structure. -/
theorem C75_meaning : ∃ hs, ReadsTypes (headerText (single { type := str "Size", name := str "Size", fieldType := .enum })) hs ∧
    ¬ Compiles hs := by
  refine ⟨[enumD size, .struct (str "Single") [⟨.name (word (str "Size")), str "Size"⟩]], GenCode.lexAll_ok (n := 200) (by decide +kernel), ?_⟩
  intro h
  exact h.meaning _ _ (List.mem_cons_of_mem _ List.mem_cons_self) _ List.mem_cons_self (by decide) (by decide)

/-- An input object which contains itself, in null or a list, cannot be written either: C42 says that there is no order, and the
generator says so. -/
theorem C75_recursive : ∃ hs, ReadsTypes (headerText (single { type := str "Single", name := str "next", fieldType := .input, modifiers := [.nullable] })) hs ∧
    ¬ Compiles hs := by
  refine ⟨[enumD size, .struct (str "Single") [⟨.optional (.name (word (str "Single"))), str "next"⟩]], GenCode.lexAll_ok (n := 200) (by decide +kernel), ?_⟩
  intro h
  exact absurd (h.complete [enumD size] _ _ [] rfl _ List.mem_cons_self (by decide)) (by decide)

end Verif.GenTypes
