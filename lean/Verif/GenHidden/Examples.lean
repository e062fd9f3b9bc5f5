import Verif.GenHidden.Claims
import Verif.GenStub.Examples
import Verif.Schema.TypesExamples

/-!
# C78: an example
-/
namespace Verif.GenHidden
open Verif.Value Verif.Resp Verif.Exec
open Verif.GenCode (print ns_ok)
open Verif.GenObject (query query_ok)
open Verif.Intro (Obj)
open Verif.Cpp.Code (ReadsHidden ReadsStubs ReadsQuery)

/-- The text which is in `/repo/samples/unified/TodaySchema.cpp:391-404`. -/
theorem schema_text : schemaText query = str "\nstd::future<service::ResolverResult> Query::resolve_schema(service::ResolverParams&& params)\n{\n\treturn service::ModifiedResult<service::Object>::convert(std::static_pointer_cast<service::Object>(std::make_shared<introspection::Schema>(_schema)), std::move(params));\n}\n" := by
  decide +kernel

theorem type_text : typeText query = str "\nstd::future<service::ResolverResult> Query::resolve_type(service::ResolverParams&& params)\n{\n\tauto argName = service::ModifiedArgument<response::StringType>::require(\"name\", params.arguments);\n\tconst auto& baseType = _schema->LookupType(argName);\n\tstd::shared_ptr<introspection::object::Type> result { baseType ? std::make_shared<introspection::Type>(baseType) : nullptr };\n\n\treturn service::ModifiedResult<introspection::object::Type>::convert<service::TypeModifier::Nullable>(result, std::move(params));\n}\n" := by
  decide +kernel

/-- The object for queries of the example of C74, with the schema of the example of C37: `__type(name: "User")` is the type at the
address 3, `__type(name: "Nope")` and `__type(name: 5)` are errors. -/
theorem C78_example : ∃ k ds a b, ReadsQuery (objectText print (str "my::schema") true true query) k ds a b ∧
    ∃ r : Resolver Unit (Obj Unit), resolverOf k ds a b TypeSystem.Example.schema (str "__type") = some r ∧
      ∀ params, (params.arguments = [(str "name", .string (str "User") false)] →
          r.access params = .pure (.value (.present (.object (some (.type 3)))))) ∧
        (params.arguments = [(str "name", .string (str "Nope") false)] → r.access params = .throw (.message (str "Type not found name: Nope"))) ∧
        (params.arguments = [(str "name", .int 5)] → r.access params = .throw (.message (str "Invalid argument: name error: not a string"))) := by
  have hr := reads_query ns_ok query_ok.toWrittenOk true
  obtain ⟨-, r, h1, -, h2⟩ := C78_answer (E := Unit) (O := Unit) ns_ok query_ok hr TypeSystem.Example.schema
  refine ⟨_, _, _, _, hr, r, h1, fun params => ⟨fun e => ?_, fun e => ?_, fun e => ?_⟩⟩
  · rw [h2, e]
    have hf : Members.find [(str "name", Resp.string (str "User") false)] (str "name") = some (.string (str "User") false) := by rfl
    have hl : TypeSystem.Example.schema.lookupType (str "User") = .ok 3 := TypeSystem.Example.lookup_user
    rw [hf]
    simp only [hl]
  · rw [h2, e]
    have hf : Members.find [(str "name", Resp.string (str "Nope") false)] (str "name") = some (.string (str "Nope") false) := by rfl
    have hl : TypeSystem.Example.schema.lookupType (str "Nope") = .error (.message (str "Type not found name: Nope")) := by
      rw [(TypeSystem.C37_lookup TypeSystem.Example.built _).2]
      have : TypeSystem.Spec.named TypeSystem.Example.ops (str "Nope") = none := by decide +kernel
      rw [this]
      rfl
    rw [hf]
    simp only [hl]
  · rw [h2, e]
    rfl

end Verif.GenHidden
