import Verif.GenObject.Claims
import Verif.GenCode.Examples

/-!
# C74: an example, and names which do not work
-/
namespace Verif.GenObject
open Verif.Value Verif.Resp Verif.Errors Verif.Text Verif.GenCode Verif.Gen.Service
open Verif.Modifiers (Mod Arg)
open Verif.Gen (InputField ObjectType OutputField)
open Verif.Gen.Client (Data)
open Verif.GenText (cpp nameB_ok)
open Verif.Cpp (Path path word keywords)
open Verif.Cpp.Code (Function Constructor Method ReadsClass ReadsFunctions)

/-- An object for queries, with an interface and a union; one field takes the arguments of the example of C73. -/
def query : ObjectType where
  type := str "Query"
  interfaces := [str "Node"]
  unions := [str "Any_", str "Other"]
  fields :=
    [{ type := str "Item", name := str "find", arguments := filterFields, fieldType := .object, modifiers := [.nullable, .list] },
     { type := str "ID", name := str "id" },
     { type := str "Node", name := str "next", fieldType := .interface, accessor := str "apply" }]

/-- A boolean version of `WrittenOk` without the arguments. -/
def writtenB (t : ObjectType) : Bool :=
  GenText.nameB t.type && decide (cpp t.type ∉ keywords) && (t.interfaces ++ t.unions).all GenText.nameB &&
  t.fields.all fun f => GenText.nameB f.name && decide (f.accessor = str "get" ∨ f.accessor = str "apply") && GenText.nameB f.type &&
    decide (cpp f.type ∉ keywords)

theorem writtenB_ok {p : Double → Str} {r : Str → Double} {t : ObjectType} (h : writtenB t = true)
    (ha : ∀ f ∈ t.fields, FieldsOk p r f.arguments) : WrittenOk p r t := by
  simp only [writtenB, Bool.and_eq_true, List.all_eq_true, decide_eq_true_eq] at h
  exact {
    type := ⟨nameB_ok h.1.1.1, h.1.1.2⟩
    interfaces := fun i hi => nameB_ok (h.1.2 i hi)
    name := fun f hf => nameB_ok (h.2 f hf).1.1.1
    accessor := fun f hf => (h.2 f hf).1.1.2
    result := fun f hf => ⟨nameB_ok (h.2 f hf).1.2, (h.2 f hf).2⟩
    arguments := ha }

theorem no_fields {p : Double → Str} {r : Str → Double} : FieldsOk p r [] :=
  fieldsB_ok (by decide) fun f hf => absurd hf (by simp)

theorem filter_type : ∃ i ∈ types.inputs, i.fields = filterFields := ⟨_, List.mem_cons_self, rfl⟩

theorem query_ok : ObjectOk print read types true query where
  toWrittenOk := writtenB_ok (by decide +kernel) (by
    intro f hf
    simp only [query, List.mem_cons, List.not_mem_nil, or_false] at hf
    rcases hf with rfl | rfl | rfl
    · obtain ⟨i, hi, e⟩ := filter_type
      exact e ▸ types_ok.fields i hi
    · exact no_fields
    · exact no_fields)
  names := by decide +kernel
  reserved := by decide +kernel
  known := by
    intro f hf a ha
    simp only [query, List.mem_cons, List.not_mem_nil, or_false] at hf
    rcases hf with rfl | rfl | rfl
    · obtain ⟨i, hi, e⟩ := filter_type
      exact types_ok.known i hi a (e ▸ ha)
    · cases ha
    · cases ha
  distinct := by decide +kernel

/-- The example has the hypotheses of all the theorems: the order of the table, the types, and what the object does for `find`. -/
theorem C74_example :
    ∃ k ms fs, ReadsClass (objectText print (str "my::schema") true query) k ms ∧
      ReadsFunctions (types.inputs.flatMap (inputText print (str "my::schema"))) fs ∧
      k.types = [str "Node", str "Any_", str "Other", str "Query"] ∧
      k.entries.map (·.name) = [str "id", str "find", str "next", str "__type", str "__schema", str "__typename"] ∧
      answer ⟨⟨read, convertWith read (knownConversions types nsPath) (structures types nsPath) fs 2⟩, fun _ _ => none⟩ k ms
        (str "find") (.map arguments) =
        some ([.lock, .call (str "getFind") (converted.map (·.2)), .unlock, .convert (word (str "Item")) [.nullable, .list] .result], .ok ()) := by
  obtain ⟨fs, hf, -⟩ := C73_example.1
  have hr := reads_object (introspection := true) ns_ok query_ok.toWrittenOk
  refine ⟨_, _, fs, hr, hf, (C74_types ns_ok query_ok.toWrittenOk hr).1.trans (by decide), by decide +kernel, ?_⟩
  have := C74_answer ns_ok types_ok hf query_ok hr (f := { type := str "Item", name := str "find", arguments := filterFields, fieldType := .object, modifiers := [.nullable, .list] })
    (by simp [query]) (fun _ _ => none) 2 arguments
  dsimp only at this
  rw [converted_ok] at this
  exact this

/-- Two fields of which the names differ in the first letter only are written as the same method, twice. -/
def twins : ObjectType where
  type := str "Twins"
  fields := [{ type := str "Int", name := str "foo" }, { type := str "Int", name := str "Foo" }]

/-- So is a field with the name `_typename`. -/
def typename : ObjectType where
  type := str "Typename"
  fields := [{ type := str "Int", name := str "_typename" }]

theorem C74_twice (t : ObjectType) (ht : t ∈ [twins, typename]) :
    ∃ k ms, ReadsClass (objectText print (str "my::schema") false t) k ms ∧ ¬(ms.map fun m => (m.c, m.f)).Nodup := by
  have h : WrittenOk print read t ∧ ¬(t.fields.map capital ++ [str "_typename"]).Nodup := by
    simp only [List.mem_cons, List.not_mem_nil, or_false] at ht
    have ha : ∀ t ∈ [twins, typename], ∀ f ∈ t.fields, f.arguments = [] := by
      intro t ht f hf
      simp only [List.mem_cons, List.not_mem_nil, or_false] at ht
      rcases ht with rfl | rfl <;> simp only [twins, typename, List.mem_cons, List.not_mem_nil, or_false] at hf
      · rcases hf with rfl | rfl <;> rfl
      · rw [hf]
    rcases ht with rfl | rfl
    · exact ⟨writtenB_ok (by decide +kernel) fun f hf => ha twins (by simp) f hf ▸ no_fields, by decide +kernel⟩
    · exact ⟨writtenB_ok (by decide +kernel) fun f hf => ha typename (by simp) f hf ▸ no_fields, by decide +kernel⟩
  have hr := reads_object (introspection := false) ns_ok h.1
  exact ⟨_, _, hr, fun hn => h.2 ((C74_methods ns_ok h.1 hr).1 hn)⟩

end Verif.GenObject
