import Verif.GenCode.RunAll
import Verif.Cpp.CodeUnique

/-!
# C73: the generated code for default values, arguments and input objects
-/
namespace Verif.GenCode
open Verif.Value Verif.Resp Verif.Errors Verif.Text Verif.Gen.Service
open Verif.Modifiers (Mod Arg)
open Verif.Gen (InputField InputType)
open Verif.Gen.Client (Data)
open Verif.GenText (cpp IsNamespace Closed)
open Verif.Cpp (Path path word)
open Verif.Cpp.Code (Expr Stmt Function ReadsBody ReadsFunctions)

variable {print : Double → Str} {read : Str → Double} {T : Types} {ns : Str} {q : Path}

/-! ## The code can be read in one way -/

theorem reads_default (h : DefaultOk print read v) (level : Nat) :
    ReadsBody (defaultText print level v) (defaultS (numberE print) v) := (closed_default print read level v h).lexes

theorem reads_inputs (hn : IsNamespace ns q) (h : TypesOk print read T q) :
    ReadsFunctions (T.inputs.flatMap (inputText print ns)) (T.inputs.map (inputF (numberE print) q)) := by
  have := GenText.closed_flatMap (xs := T.inputs) (f := inputText print ns) (g := fun i => (inputF (numberE print) q i).tokens) fun i hi =>
    closed_input hn print read (h.name i hi).1 (h.name i hi).2 (h.fields i hi)
  rw [ReadsFunctions, List.flatMap_map]
  exact this.lexes

theorem reads_arguments (hn : IsNamespace ns q) {fs : List InputField} (h : FieldsOk print read fs) :
    ReadsBody (argumentsText print ns fs) (argumentsS (numberE print) q fs) := (closed_arguments hn print read h).lexes

/-- What is written for a default value is code, and so is what is written for the input objects and for the arguments. (It is code
in one way only: `ReadsBody.unique`, `ReadsFunctions.unique`.) -/
theorem C73_code (hn : IsNamespace ns q) (h : TypesOk print read T q) :
    (∃! fs, ReadsFunctions (T.inputs.flatMap (inputText print ns)) fs) ∧
    (∀ arguments, FieldsOk print read arguments → ∃! ss, ReadsBody (argumentsText print ns arguments) ss) ∧
    (∀ v level, DefaultOk print read v → ∃! ss, ReadsBody (defaultText print level v) ss) :=
  ⟨⟨_, reads_inputs hn h, fun _ k => k.unique (reads_inputs hn h)⟩,
   fun _ ha => ⟨_, reads_arguments hn ha, fun _ k => k.unique (reads_arguments hn ha)⟩,
   fun _ _ hv => ⟨_, reads_default hv _, fun _ k => k.unique (reads_default hv _)⟩⟩

/-! ## Default values -/

/-- The code which is written for a default value gives `entry` this value, and nothing else changes. -/
theorem C73_default (h : DefaultOk print read v) (level : Nat) {ss : List Stmt} (hs : ReadsBody (defaultText print level v) ss)
    (L : Library) (hL : L.read = read) (E : Scope) (hE : (E (str "entry")).isSome) :
    execs L ss E = .ok (none, E.set (str "entry") (.value v)) := by
  obtain ⟨x, hx⟩ := Option.isSome_iff_exists.1 hE
  rw [hs.unique (reads_default h level)]
  subst hL
  exact does_default print L v h hx

/-! ## Input objects -/

/-- The specialisations of `ModifiedArgument<X>::convert` which are written for the input objects, with the conversions of the
library and of the enums, give for all fields and all values what `Verif.Gen.Service.convert` says (C58, C59). -/
theorem C73_convert (hn : IsNamespace ns q) (h : TypesOk print read T q) {fs : List Function}
    (hf : ReadsFunctions (T.inputs.flatMap (inputText print ns)) fs) (depth : Nat) (f : InputField) (hk : TypeKnown T f) (v : Resp) :
    convertWith read (knownConversions T q) (structures T q) fs depth (accessPath q f) v = Out.of (convert T depth f v) := by
  rw [hf.unique (reads_inputs hn h)]
  exact convert_run h depth f hk v

/-! ## Arguments -/

/-- The first part of a resolver declares a variable for every argument, with the value of which C58 and C59 say, or throws the
exception of which they say so. -/
theorem C73_arguments (hn : IsNamespace ns q) (h : TypesOk print read T q) {fs : List Function}
    (hf : ReadsFunctions (T.inputs.flatMap (inputText print ns)) fs) {fields : List InputField} (ha : FieldsOk print read fields)
    (hk : ∀ f ∈ fields, TypeKnown T f) {ss : List Stmt} (hs : ReadsBody (argumentsText print ns fields) ss)
    (depth : Nat) (arguments : Members) :
    let L : Library := ⟨read, convertWith read (knownConversions T q) (structures T q) fs depth⟩
    let E : Scope := Scope.empty.set (str "params") (.params (.map arguments))
    match resolverArguments T depth fields arguments with
    | .ok as => ∃ E', execs L ss E = .ok (none, E') ∧
        List.Forall₂ (fun f a => a.1 = f.name ∧ E' (str "arg" ++ capital f) = some (.arg a.2)) fields as
    | .error e => execs L ss E = .throws e
    | .depth => execs L ss E = .depth := by
  rw [hs.unique (reads_arguments hn ha)]
  have := arguments_run (print := print) (ns := q)
    (L := ⟨read, convertWith read (knownConversions T q) (structures T q) fs depth⟩) ha (c := convert T depth)
    (fun f hm v => C73_convert hn h hf depth f (hk f hm) v) (.map arguments)
  rw [resolverArguments]
  cases hg : getArguments (convert T depth) (defaults fields) fields (.map arguments) with
  | ok as => rw [hg] at this; obtain ⟨E', h1, h2, -⟩ := this; exact ⟨E', h1, h2⟩
  | error e => rw [hg] at this; exact this
  | depth => rw [hg] at this; exact this

end Verif.GenCode
