import Verif.GenService.Claims
import Verif.GenClass.Examples
import Verif.Intro.Examples

/-!
# C79: an example
-/
namespace Verif.GenService
open Verif.Value Verif.Resp Verif.Exec
open Verif.GenCode (fieldsB_ok print read nsPath ns_ok types DefaultOk)
open Verif.GenObject (WrittenOk ObjectOk)
open Verif.GenClass (ClassesWritten headerText)
open Verif.GenObject (writtenB_ok no_fields)
open Verif.GenStub (make declText defText OperationsOk)
open Verif.GenHidden (objectText)
open Verif.Gen (Loader DistinctNames FreshAddrs generatedSchema visitDefinitions validateSchema ObjectType)
open Verif.View (Fresh Reachable declared)
open Verif.Request (resolve)
open Verif.Intro (single)
open Verif.Intro.Examples (exampleSchema exampleImpl exampleUser exampleRequest unknownRequest exampleAnswer unknownAnswer answerOf example_document)
open Verif.Sound (Accepted Supplied)
open Verif.Cpp.Code (ReadsQuery ReadsClasses ReadsOperationsDecl ReadsOperationsDef)

/-- What is loaded for the type `Query` of the example of C64. -/
def query : ObjectType where
  type := str "Query"
  fields :=
    [{ type := str "String", name := str "hello", modifiers := [.nullable], description := str "says hello"
       arguments := [{ type := str "Int", name := str "times", defaultValueString := str "3", defaultValue := .int 3 }] },
     { type := str "Color", name := str "old", fieldType := .enum, modifiers := [.list], deprecationReason := some (str "new is better") }]

theorem query_written : WrittenOk print read query := by
  refine writtenB_ok (by decide +kernel) fun f hf => ?_
  simp only [query, List.mem_cons, List.not_mem_nil, or_false] at hf
  rcases hf with rfl | rfl
  · refine fieldsB_ok (by decide +kernel) fun f hf => ?_
    simp only [List.mem_cons, List.not_mem_nil, or_false] at hf
    rcases hf with rfl
    simp [DefaultOk]
  · exact no_fields

theorem query_ok : ObjectOk print read types true query where
  toWrittenOk := query_written
  names := by decide +kernel
  reserved := by decide +kernel
  known := by
    intro f hf x hx
    simp only [query, List.mem_cons, List.not_mem_nil, or_false] at hf
    rcases hf with rfl | rfl
    · simp only [List.mem_cons, List.not_mem_nil, or_false] at hx
      rcases hx with rfl
      trivial
    · cases hx
  distinct := by decide +kernel

theorem loaded {l₀ l : Loader} (h1 : visitDefinitions id {} exampleSchema = .ok l₀) (h2 : validateSchema false l₀ = .ok l) :
    l.interfaceTypes = [] ∧ l.objectTypes = [query] ∧ l.operationTypes = [⟨str "Query", str "query"⟩] := by
  obtain ⟨l₀', l', h1', h2', h3⟩ := Gen.accepted (doc := exampleSchema) (f := fun s => (s.interfaceTypes, s.objectTypes, s.operationTypes))
    (v := ([], [query], [⟨str "Query", str "query"⟩])) (by computed)
  rw [h1] at h1'
  cases h1'
  rw [h2] at h2'
  cases h2'
  simpa only [Prod.mk.injEq] using h3

/-- A document, the generated classes, a user's service and a request, which meet all the hypotheses of C79; and the response. -/
theorem C79_example : ∃ alloc alloc' l₀ l s v k ds a b hs d o m,
    visitDefinitions id {} exampleSchema = .ok l₀ ∧ validateSchema false l₀ = .ok l ∧ DistinctNames l ∧ FreshAddrs alloc ∧
    generatedSchema false alloc l = .ok s ∧ Fresh alloc' ∧ Reachable alloc' s true v ∧
    query ∈ l.objectTypes ∧ query.type = (declared false l).query ∧
    ReadsQuery (objectText print (str "my::schema") true true query) k ds a b ∧
    ClassesWritten print read l.interfaceTypes l.objectTypes ∧
    ReadsClasses (headerText false (some (str "Query")) l.interfaceTypes l.objectTypes) hs ∧ OperationsOk l.objectTypes l.operationTypes ∧
    ReadsOperationsDecl (declText l.operationTypes) d ∧ ReadsOperationsDef (defText l.operationTypes) o ∧
    List.Forall₂ (fun (_ : Unit) r => str "Query" = r.type) [()] l.operationTypes ∧ make nsPath hs d o [()] = some m ∧
    ObjectsFor print (str "my::schema") l exampleImpl (fun _ => str "Query") (fun _ => False) ∧
    Accepted (declared true l) id (single exampleRequest) { pos := {}, type := some (str "query"), sub := exampleRequest } (str "Query") ∧
    Supplied (declared true l) (single exampleRequest) { pos := {}, type := some (str "query"), sub := exampleRequest } [] ∧
    answerOf (resolve (service k ds a b m v.schema (fun _ => true) (exampleUser l)) true (single exampleRequest) [] []) =
      some (.ok exampleAnswer) ∧
    answerOf (resolve (service k ds a b m v.schema (fun _ => true) (exampleUser l)) true (single unknownRequest) [] []) =
      some (.ok unknownAnswer) := by
  obtain ⟨alloc, alloc', l₀, l, s, v, hf, hf', h1, h2, hd, hq, hb, hv, hu, hacc, hsup, r1, r2⟩ := example_document
  obtain ⟨e1, e2, e3⟩ := loaded h1 h2
  have hr := GenHidden.reads_query ns_ok query_written true
  have hw : ClassesWritten print read l.interfaceTypes l.objectTypes := by
    rw [e1, e2]
    exact ⟨by simp, by simpa using query_written, by simp [query]⟩
  have ho : OperationsOk l.objectTypes l.operationTypes := by
    rw [e2, e3]
    exact { type := by
              intro o ho
              simp only [List.mem_singleton] at ho
              subst ho
              exact query_written.type
            kind := by decide
            distinct := by decide
            known := by decide +kernel }
  have hhs := GenClass.reads_classes false (some (str "Query")) hw
  have hdc := GenStub.reads_decl ho.toOperationsWritten
  have hdf := GenStub.reads_def ho.toOperationsWritten
  obtain ⟨m, hm, hfind, hnone⟩ := GenStub.C77_find (α := Unit) nsPath hw hhs ho hdc hdf [()] (by rw [e3]; rfl)
  have hops : m.find = (exampleUser l).operations := by
    funext x
    unfold exampleUser
    dsimp only
    split
    · rename_i hx
      have := hfind 0 (by rw [e3]; decide)
      simp only [e3, List.getElem_cons_zero] at this
      rw [hx, this]
    · rename_i hx
      refine hnone x ?_
      rw [e3]
      simpa using hx
  have hs : service (GenObject.constructorK true query) (GenStub.definitions (GenCode.numberE print) nsPath true query)
      (GenHidden.schemaM query) (GenHidden.typeM query) m v.schema (fun _ => true) (exampleUser l) =
      Intro.introspected v.schema (fun _ => true) (exampleUser l) := by
    rw [C79_service ns_ok query_ok hr, hops]
  refine ⟨alloc, alloc', l₀, l, s, v, _, _, _, _, _, _, _, m, h1, h2, hd, hf, hb, hf', hv, by rw [e2]; simp, ?_, hr, hw, hhs, ho, hdc, hdf,
    ?_, hm, ⟨fun _ => ⟨query, by rw [e2]; simp, rfl, true, _, _, GenObject.reads_object ns_ok query_written, ?_⟩, ?_⟩, hacc, hsup, ?_, ?_⟩
  · exact ((hu.isQuery ()).1 rfl)
  · rw [e3]
    exact .cons rfl .nil
  · exact show [str "Query"] = (GenObject.constructorK true query).types by decide +kernel
  · exact { hu.serves with names := nofun }
  · rw [hs]; exact r1
  · rw [hs]; exact r2

end Verif.GenService
