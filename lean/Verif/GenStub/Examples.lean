import Verif.GenStub.Claims
import Verif.GenClass.Examples

/-!
# C77: an example
-/
namespace Verif.GenStub
open Verif.Value Verif.Resp Verif.Text Verif.GenClass
open Verif.GenText (cpp)
open Verif.GenTypes (demo)
open Verif.GenCode (print read nsPath ns_ok types types_ok filterFields inputText convertWith knownConversions structures converted_ok)
open Verif.GenObject (answer query_ok)
open Verif.Gen (InputField InterfaceType ObjectType OutputField OperationType)
open Verif.Gen.Service (resolverArguments)
open Verif.Cpp (Path path word)
open Verif.Cpp.Code (CType ClassHeader ReadsClasses ReadsFunctions ReadsStubs ReadsOperationsDecl ReadsOperationsDef)

/-! ## Stubs -/

/-- The text of the stub of the field `owner` of an `Item`. -/
theorem stub_text : (item.fields.map (stubText item))[1]? = some (str "\nservice::FieldResult<std::optional<std::vector<std::shared_ptr<Item>>>> Item::getOwner(service::FieldParams&&, std::optional<Filter>&&, std::vector<Size>&&) const\n{\n\tthrow std::runtime_error(R\"ex(Item::getOwner is not implemented)ex\");\n}\n") := by
  decide +kernel

/-- The classes of the example of C76, with stubs: the class of an item has five functions, which are defined. -/
theorem stub_example : ∃ hs k ds c, ReadsClasses (headerText false (some (str "Query")) [node, named'] [item, GenClass.query]) hs ∧
    ReadsStubs (objectText print (str "my::schema") false true item) k ds ∧ class? hs (str "Item") = some c ∧
    (ds.filterMap stub?).map (definition nsPath hs c) = (own nsPath hs c).map (·.2) ∧
    (ds.filterMap stub?).map (·.f) = [str "getId", str "getOwner", str "getName", str "getSize", str "getNext"] ∧
    ds.length = 11 := by
  have h1 := reads_classes false (some (str "Query")) demo_written
  have h2 := reads_stubs ns_ok (demo_ok.objects item (by simp)) false true
  obtain ⟨c, hc, -, hd, -, -⟩ := C77_definitions ns_ok demo_ok h1 (t := item) (by simp) (by
    rw [show decide (some (str "Query") = some item.type) = false by decide]
    exact h2)
  refine ⟨_, _, _, c, h1, h2, hc, hd, ?_, rfl⟩
  rw [stubs_eq]
  decide +kernel

/-- The object of the example of C74 is asked for a field which is not implemented. -/
theorem answer_example : ∃ k ds fs as, ReadsStubs (objectText print (str "my::schema") true true GenObject.query) k ds ∧
    ReadsFunctions (types.inputs.flatMap (inputText print (str "my::schema"))) fs ∧
    answer ⟨⟨read, convertWith read (knownConversions types nsPath) (structures types nsPath) fs 2⟩, fun g _ => thrown k.c ds g⟩ k
      (ds.filterMap resolver?) (str "find") (.map GenCode.arguments) =
      some ([.lock, .call (str "getFind") as, .unlock], .throws (.other (str "Query::getFind is not implemented"))) := by
  obtain ⟨fs, hf, -⟩ := GenCode.C73_example.1
  have hr := reads_stubs (stubs := true) ns_ok query_ok.toWrittenOk true
  refine ⟨_, _, fs, GenCode.converted.map (·.2), hr, hf, ?_⟩
  have := C77_not_implemented ns_ok types_ok hf query_ok hr
    (f := { type := str "Item", name := str "find", arguments := filterFields, fieldType := .object, modifiers := [.nullable, .list] })
    (by simp [GenObject.query]) 2 GenCode.arguments
  dsimp only at this
  rw [converted_ok] at this
  exact this

/-! ## `Operations` -/

def roots : List OperationType := [⟨str "Query", str "query"⟩, ⟨str "Item", str "mutation"⟩]

theorem roots_ok : OperationsOk [item, GenClass.query] roots where
  type := by
    intro o ho
    simp only [roots, List.mem_cons, List.not_mem_nil, or_false] at ho
    rcases ho with rfl | rfl
    · exact (demo_ok.objects GenClass.query (by simp)).type
    · exact (demo_ok.objects item (by simp)).type
  kind := by decide
  distinct := by decide
  known := by decide +kernel

theorem roots_text : defText roots = str "\nOperations::Operations(std::shared_ptr<object::Query> query, std::shared_ptr<object::Item> mutation)\n\t: service::Request({\n\t\t{ \"query\", query },\n\t\t{ \"mutation\", mutation }\n\t}, GetSchema())\n\t, _query(std::move(query))\n\t, _mutation(std::move(mutation))\n{\n}\n\n" := by
  decide +kernel

/-- Two objects, `1` for queries and `2` for mutations. -/
theorem operations_example : ∃ hs d o, ReadsClasses (headerText false (some (str "Query")) [node, named'] [item, GenClass.query]) hs ∧
    ReadsOperationsDecl (declText roots) d ∧ ReadsOperationsDef (defText roots) o ∧
    make (α := Nat) nsPath hs d o [1, 2] = some ⟨[(str "query", some 1), (str "mutation", some 2)], [(str "_query", some 1), (str "_mutation", some 2)]⟩ := by
  have h1 := reads_classes false (some (str "Query")) demo_written
  have h2 := reads_decl roots_ok.toOperationsWritten
  have h3 := reads_def roots_ok.toOperationsWritten
  obtain ⟨m, hm, e1, e2⟩ := C77_operations (α := Nat) nsPath demo_written h1 roots_ok h2 h3 [1, 2] rfl
  refine ⟨_, _, _, h1, h2, h3, ?_⟩
  rw [hm]
  obtain ⟨a, b⟩ := m
  simp only at e1 e2
  rw [e1, e2]
  rfl

/-- A schema with two root types for queries. -/
theorem repeated_example : OperationsWritten [⟨str "Query", str "query"⟩, ⟨str "Item", str "query"⟩] ∧
    ¬(([⟨str "Query", str "query"⟩, ⟨str "Item", str "query"⟩] : List OperationType).map (·.operation)).Nodup := by
  refine ⟨⟨?_, by decide⟩, by decide⟩
  intro o ho
  simp only [List.mem_cons, List.not_mem_nil, or_false] at ho
  rcases ho with rfl | rfl
  · exact (demo_ok.objects GenClass.query (by simp)).type
  · exact (demo_ok.objects item (by simp)).type

end Verif.GenStub
