# Formal model of cppgraphqlgen in Lean 4: design

The model lives in `lean/Verif/`, one directory per area. In each area
`Model.lean` transcribes the C++ function by function (each definition cites file and lines in `/repo`),
`Spec.lean` (where a separate specification is needed) says what the English property means without
using the model's helpers, `Lemmas.lean` has helper lemmas, and `Props.lean` has the property theorems,
named `Cnn_…`, each with an `example` beside it that instantiates its hypotheses non-trivially.

## Trusted base

* Lean's kernel (4.33.0). No axioms are added; theorems depend at most on `propext`, `Classical.choice`
  and `Quot.sound` (see the section "Axioms" below). No `native_decide`/`bv_decide`.
* The transcription: C++ was read as text and not run. Every definition cites what it models.
* C++ standard library semantics, as used in the model: `std::equal_range`/`lower_bound` are modelled by
  binary search on a list/array (or its contract on sorted input, stated where so), `std::vector`,
  `std::map`, `std::string` as lists, exceptions as `Except`, moves as value transfer plus a reset source.
* Memory safety, object lifetime, coroutine frames and real thread scheduling are outside the model,
  except where a property is about them (then the scheduling is modelled as arbitrary interleaving of
  atomic steps and undefined behaviour as a distinct outcome).
* Third-party code: PEGTL (the PEG combinators' documented semantics are modelled), RapidJSON (modelled as
  the stream of SAX events that its Writer emits and its Reader replays).

## Plan per property

| Id | Model | Proof |
|----|-------|-------|
| C01–C03 | `Base64`: loops of `toBase64`/`fromBase64` over `BitVec`/`Nat` bytes and chars, throws as `Except` | induction three bytes/four chars at a time; finite bit facts by exhaustive kernel computation lifted by a lemma |
| C04–C06 | `Value`: object = entry list + sorted index list with binary search; typed access as total functions with throw outcomes and post-state | invariant (index sorted permutation) over op histories; refinement to an insertion-ordered association list |
| C07–C08 | `Json`: `writeResponse` to SAX events and `ResponseHandler` as a stack machine | structural induction on value trees with an arbitrary stack context |
| C09–C10 | `SortedMap`: vector + `equal_range` | refinement to `Key → Option Val` over op sequences; order laws |
| C11–C12 | `Errors`: `field_path` parent chain and `buildErrorPath`/`buildErrorValues` | induction on the chain; inverse parser |
| C13–C16, C18–C19 | `Exec`: `ValueVisitor`, `DirectiveVisitor`, `SelectionVisitor`, `ModifiedResult`, `Object::resolve` | structural / fuel induction against an independently written collection spec |
| C17, C40 | `Modifiers`: `ModifiedArgument`, `ModifiedVariable`, `ModifiedResponse` | induction on modifier stacks |
| C20 | `Exec`+`Validation`: fragment expansion as a graph walk | accepted ⇒ acyclic ⇒ fuel bound sufficient |
| C21 | `Exec`: effects trace of accessors and deferred work | counterexample + partial theorem |
| C22–C23 | `Request`: operation lookup and variable environment | list induction |
| C24–C27 | `Subscriptions`: registry state machine | invariant over histories |
| C28–C33 | `Validation` | soundness against an independent transcription of the GraphQL spec rules |
| C34–C35 | `Grammar`: PEG interpreter and literal unescaping | induction on strings; counterexamples where the code deviates |
| C50 | `Grammar`: termination of matching, positions of nodes | rank of rules × length of the rest; induction on fuel |
| C51 | `Grammar`: smaller grammar, then mixed grammar | rule-by-rule simulation, disjoint first tokens |
| C52 | `Grammar`: executable documents as text, against a context-free notation | induction on the length of the text, in both directions: every rule with the condition on what follows |
| C36 | `Schema`: threads as small-step programs with shared/unique lock | invariant over interleavings |
| C37–C38, C49 | `Schema`, `Introspection`: histories of calls | induction on histories, invariant of the wrapper tables |
| C46 | `Exec`: directives of fragments on the stack of the selection visitor | induction on the selection |
| C47 | `Subs`, `Request` | case analysis of `subscribe` |
| C48 | `Validation` against inference rules | simulation |
| C39 | `Client` | list induction |
| C41–C43, C53–C59 | `Generators` | induction (C56: on the derivation of validity); for C53 an invariant of the visited prefix |
| C60, C61 | `Validation`, `Exec`, `Request`, `Json`, `Client`, `Generators` together (`Sound`) | induction on the expanded selections; composition of C13–C16, C20, C22, C23, C29, C32, C48 (C60), and of C60, C07, C39, C57 (C61) |
| C62 | The constructor, tables and caches of the validator over the schema objects (`View`), `Generators` (C55) | invariant of all histories of calls: the tables are those of the declared schema, the cached fields are what the schema objects say; type objects are compared by address, so identity of types (C36, C37) is part of it |
| C63 | `Grammar`: type system documents as text, against a context-free notation, and what `SchemaLoader` reads from the parse tree | as C52; with the loader (C53, C54) |
| C64 | The classes of introspection as resolvers over the schema objects (`Intro`), `Exec`, `Request`, `View`, `Sound` | a simulation between two services (related objects have resolvers with related results) makes all responses equal; C55 and C62 say what the schema objects hold; C60 gives the second part |
| C65 | The executor in continuation passing style as threads which fork, join and lock (`Async`), `Exec`, `Request` | a program logic (denotation with rely on the values of the other threads) and a simulation of the deferred executor; an invariant of all configurations says that every thread has a denotation, which gives progress and the answer in every schedule |
| C66 | `resolveUnvalidated` and its search for the operation (`Async/Unvalidated.lean`) | the programs are equal to those of C65 |
| C67 | `deliver`, `subscribe` and `unsubscribe` with launch policies (`Async/Deliver.lean`), with arbitrary callbacks | the simulation of C65 extended by the loop over the listeners and the futures of the callbacks; reference is `Subs` followed by the callbacks |
| C68 | the text in the raw string literal of the client (`ClientText/Model.lean`), with the grammar of C52, the validator of C48 and the executor of C13–C23 | every production of the document grammar moves along when text is indented (`Moves.lean`); validator and executor commute with moving all places (`Validates.lean`, `Executes.lean`) |
| C69 | the rest of the constructor of `RequestLoader` (`Gen/Loaded.lean`) | the collected sets are closed under the fields of input types and everything in them is reachable (`LoadedProps.lean`); the number of types not collected yet bounds the recursion (`LoadedClaims.lean`) |
| C70 | `Object::resolve`, `ModifiedResult::convert`, `Request::resolve` and `deliver` once more, without values, but with the objects which are created and destroyed (`Life/Model.lean`) | a logic of ownership for threads which fork and join: owned, borrowed, lent (`Logic.lean`, soundness by an invariant over all schedules); the functions satisfy it (`Triples.lean`, `Functions.lean`) |
| C71 | the text of the enums, arrays and functions which `schemagen` writes for the schema (`GenText/Model.lean`) | a specification of the C++ which is used: tokens, syntax, calls (`Cpp/Spec.lean`, `GenText/Calls.lean`); reading is unique (`Cpp/Unique.lean`); the text is read as the intended syntax (`Read*.lean`), which makes the calls of C55 (`Runs.lean`, `RunAll.lean`, `Separate.lean`) |
| C72 | request texts, parser and visitors, validator and execution (the models of C52, C48, C22) | a specification of tokens (`Respell/Spec.lean`), which are unique (`Unique.lean`); by induction over the grammar the text of a document can be written with any ignored text between the same tokens (`Moves.lean`, `Documents.lean`); two texts with the same tokens are compared with a third one which has ignored text everywhere, and documents which differ only in places have the same answer (C68) |
| C73 | the text which `schemagen` writes for default values, arguments and input objects (`GenCode/Model.lean`), and a specification of the C++ in it (`Cpp/CodeSpec.lean`: syntax; `GenCode/Run.lean`: what it does, with `response::Value` and `ModifiedArgument`) | by induction over default values and fields the text has the tokens of the code which is meant (`Read.lean`, `ReadAll.lean`); a parser shows that it has no other (`Cpp/CodeUnique.lean`); the code is run (`Runs.lean`, `RunAll.lean`), by induction over values, fields and depth, with the result of C58/C59 |
| C74 | the text which `schemagen` writes for the class of an object type (`GenObject/Model.lean`): the constructor with its table, the resolvers, `__typename`; and a specification of the C++ in it (`Cpp/ObjectSpec.lean`: syntax; `GenObject/Run.lean`: what it does, as events: lock, unlock, call of an accessor, conversion) | the text has the tokens of the class which is meant (`Read.lean`, `ReadAll.lean`) and no other (`Cpp/ObjectUnique.lean`); the table is a sorted permutation of the fields, by induction over them; the resolvers are run (`Runs.lean`), the first part with C73 |
| C75 | the text which `schemagen` writes for the enums and input objects (`GenTypes/Model.lean`): the declarations in the header, the names and the conversions of the enums and those of the input objects in the source; and a specification of the C++ in it (`Cpp/TypeSpec.lean`: syntax; `GenTypes/Run.lean`: what the header declares, what the conversions do, and when the header compiles) | the text has the tokens of the declarations which are meant (`Read.lean`) and no other (`Cpp/TypeUnique.lean`); the conversions of enums are run; all conversions together are those of C73, by induction on the depth; the header compiles by the order of C42 |
| C76 | the text which `schemagen` writes in the header for interfaces and objects (`GenClass/Model.lean`); and a specification of the C++ in it (`Cpp/ClassSpec.lean`: syntax; `GenClass/Run.lean`: what a name of a type means in a class, which function a call means, what is overridden and what is left undefined, and the types of `ModifiedResult`) | the text has the tokens of the declarations which are meant (`Read.lean`) and no other (`Cpp/ClassUnique.lean`); the meaning of every name and the signature of every function (`Mean.lean`), from which the claims follow; the methods of the source are those of C74 |
| C77 | the text which `schemagen` writes for an object with stubs, and for the class `Operations` in the header and in the source (`GenStub/Model.lean`); and a specification of the C++ in it (`Cpp/StubSpec.lean`: syntax; `GenStub/Run.lean`: what a stub defines, and what the constructor of `Operations` makes) | the texts have the tokens which are meant (`Read.lean`) and no others (`Cpp/StubUnique.lean`); the readings are compared with those of C76 and C74, and the constructor is run |
| C78 | the text of `resolve_schema` and `resolve_type` (`GenHidden/Model.lean`), and a specification of the C++ in it (`Cpp/HiddenSpec.lean`: syntax; `GenHidden/Run.lean`: the resolvers of the executor which it means) | the text has the tokens which are meant and no others; the resolvers are those of the model of C64 |
| C79 | a service which is made of the generated `Operations`, the generated class for queries and objects of the generated classes (`GenService/Spec.lean`) | it is the service of C64: its root objects by C77, its type names by C74 and C54, its resolvers of introspection by C78 |

Nothing on the list is inexpressible in a model; the parts left out of each model are recorded in the
sections below.

## Areas: what is modelled, simplifications, findings

### Base64 (`Verif/Base64`)
`src/Base64.cpp` and `internal/Base64.h` completely: both loops, the padding checks, all the exceptions.

### SortedMap (`Verif/Std`, `Verif/SortedMap`)
`internal/SortedMap.h` completely. `std::equal_range`, `lower_bound`, `upper_bound` are modelled as the libstdc++ loops
and their contract is proved for sorted ranges. Iterators are indices.

### Value (`Verif/Value`)
`src/GraphQLResponse.cpp`: `Value` with its types, map insertion and lookup, list access, get/set/release, copy,
comparison. Strings are byte lists; `IntType` is an integer (range is a hypothesis where it matters); `double` is
`finite` rational, negative zero, infinities, NaN, with conversion from int exact. Not modelled: `std::unique_ptr`
lifetimes, `reserve`, `std::set<OrderedValue>`.
Findings: a default constructed `Scalar` cannot be copied; `release<IdType>` empties the text before it can throw.

### Json (`Verif/Json`)
`src/JSONResponse.cpp` completely; RapidJSON by assumption: the `Reader` replays the calls made to the `Writer`, with
non-negative integers as `Uint` (or 64 bit); it stops at the first syntax error, having made a prefix of the calls of
some document. Findings: NUL characters cut strings off; malformed JSON is not reported.

### Resp (`Verif/Resp`)
`Resp` is a response value without the lookup index (`Members` for objects); `Resp/Refine.lean` proves that its
operations are those of `Verif.Value` values built by `emplace_back`. The later areas use it.

### Errors and client (`Verif/Errors`)
`GraphQLService.cpp:16-165` and `GraphQLClient.cpp:10-167`: paths, error documents, the client's reading of both.
Numbers are cut to 32 bits as in the code; the theorems assume that they fit.

### Modifiers (`Verif/Modifiers`)
`ModifiedArgument` (GraphQLService.h), `ModifiedVariable` and `ModifiedResponse` (GraphQLClient.h) as functions over stacks
of modifiers; leaf conversions are parameters, the built-in ones are given.

### Exec (`Verif/Ast`, `Verif/Exec`)
`GraphQLService.cpp:179-1199` and `ModifiedResult`, GraphQLService.h:496-776. User objects, accessors, scalars and their
exceptions are arbitrary; `Run` records the events of user code. Simplifications: `std::async` is deferred execution (`Async`, C65,
models the other launch policies); a spread carries its fragment (`XSelection`); the lifetime
of the `field_path` parents and of the response name views is not modelled.
Findings: @include is ignored beside @skip; a skipped field hides later fields of the same name; fields with equal
response names are not merged; malformed directives fail the whole selection set; list elements which fail as a whole are
dropped; errors of futures have no path; mutations are serial only for their accessors; a selection set on an enum field is
ignored (the generated conversion of an enum does not call `blockSubFields`).

### Request (`Verif/Request`)
`GraphQLService.cpp:1201-1389, 1613-1776`: fragment collection, operation selection, variables, `resolve`. Fragments are
expanded into the selection sets first (`expand`, with as many levels as there are fragments; a cyclic expansion does not
return in C++ and is the outcome `undefined`). The validator is a parameter.
Findings: without a name the first of several operations runs; failures at the root throw from the future; the directives
of fragment definitions do not see variable defaults.

### Subscriptions (`Verif/Subs`)
`GraphQLService.cpp:1391-1611, 1932-2330`: `subscribe`, `unsubscribe`, `deliver` and their overloads, on `sorted_map`s of
`Verif.SortedMap`, and histories of calls including those made by callbacks. Undefined behaviour (fragments at the root,
several operations) is the outcome `undefined`. Not modelled here: `std::launch` (see C65 for `resolve`, C67 for subscriptions); coroutines (the futures run when asked).
Findings: keys are used again; a callback can be called after its `unsubscribe` returned; `deliver` without maps reaches
only subscriptions without arguments and directives; throwing accessors do not fail `subscribe`; subscriptions get no
variable defaults; fragments at the root are undefined behaviour; a skipped root field is registered under no name.

### Validation (`Verif/Validation`)
`src/Validation.cpp` completely, but for the locations of the errors: `ValidateArgumentValueVisitor`,
`ValidateVariableTypeVisitor`, `ValidateExecutableVisitor` with all of its mutable state, function by function
(`Model.lean`). Maps and sets are lists in order of insertion; a shared type object is the type reference which describes
it; the caches of fields are recomputed. `Spec.lean` is the specification: inference rules without state and messages
(`Fits`, `ArgumentsOk`, `DirectivesOk`, `Checked`, `Valid`). The proof of C48 is a simulation: each function of the
visitor adds no error iff its rule applies, and then changes the state in a known way (`Step`, `Outcome`, `Idle`);
C28–C30, C32, C33 and the second part of C20 follow from `Valid` (`Sets.lean`, `Props.lean`). C31 and termination are
proved on the visitor itself, for all documents (`History.lean`). `SetSpec.lean` and `InputSpec.lean` are the vocabulary of
the consequences: which fields a selection set selects, and which values an input type has.
Assumptions: the schema has all the types it mentions (`Schema.Closed`), no `T!!` in the document (the grammar has none).
Findings (`Examples.lean`): what is below a field which repeats a response name is not validated, so cyclic fragments,
unknown fields, missing selections and wrong arguments can be accepted there; agreement is only with the first field;
`@include` without parentheses lacks its required argument; null is accepted for a non-null argument with a default and
reaches the resolver; no list coercion; variables inside of custom scalars are neither checked nor counted as used; an
unsupported operation leaves its variables to the next document.
The lookups which the rules use (`find`, `isComposite`, `overlap`, ...) are characterised in `Meaning.lean`.

### Schema (`Verif/Schema`)
`Wrap.lean`: `Schema::WrapType` for any number of threads, as a small-step program per thread with its shared and unique
locks and the two caches; undefined behaviour (a read of the cache during a change) is a distinct outcome, proved
unreachable. `Types.lean`: all of `src/Schema.cpp` for one thread (types as objects in a store, at addresses) and
`src/Introspection.cpp` (without the resolvers' futures, and `introspection::Directive`, which returns its members).
The specification of C37 and C38 (`TypesSpec.lean`) is in terms of the history of the calls which built the schema.
Assumption: types outlive their use (a `weak_ptr` which was assigned can be locked).
Findings: a kind other than LIST shares the cache of NON_NULL (`wrong_kind_is_shared`); a second `AddInterfaces` leaves
stale possible types behind; a second type of the same name hides the first from `LookupType` but not from
`__schema { types }`.

### Grammar (`Verif/Grammar`)
`Peg.lean`: PEGTL's combinators (`seq`, `sor`, `opt`, `star`, `plus`, `at`, `not_at`, `must`, `if_must`, `list`, `rep`,
`one`, `ranges`, UTF-8 ranges, `eol`, `eof`, ...), reduced to a small core and interpreted with fuel on the rest of the
input, with parse tree building by selectors; results are success with nodes and rest, local failure, or a thrown
`parse_error`. `Rules.lean`: all the rules of `Grammar.h` with both selectors and the error messages of SyntaxTree.cpp,
generated by `tools/grammar.py` from the text of these files. `WellFormed.lean` (generated) with `PegProps.lean`: no left
recursion and no loop over an empty match, so that matching ends for every text; `Eval.lean` is the fuel-free evaluation.
`Tree.lean`: `parseString`, `parseSchemaString`, `unescaped_view`. The specification (`Spec.lean`, namespace
`Verif.Text`) describes names, ignored text, numbers and strings by inductive relations on texts, independently of PEG.
Trusted: the semantics of PEGTL's combinators (not in /repo) and `tools/grammar.py`. Not modelled: line/column of
`parse_error`s, the depth limit of recursion (stack overflow), file IO (a file is its bytes), `unescape_j` (a parameter).
Findings: escape sequences of strings are never decoded (`"\n"` is `n`, `"\u0041"` is `u0041`, `\"""` keeps its
backslash); a description is cut at its first escape sequence; floats with fraction and exponent are rejected; `{a{b}c}` is rejected.

`SyntaxSpec.lean` (specification) gives the notation of executable documents as relations between a text, what it is the
notation of and the text behind it; it is context-free: nothing is said about the order of alternatives or what may follow.
`Ast.lean` collects the accessors of the visitors (`on_first_child`, `children.front()`, ...) into functions from parse
trees to the types of `Ast/Basic.lean`, with no value where a visitor would use a missing child. `Syntax.lean`,
`Values.lean`, `Directives.lean`, `TypeRefs.lean`, `Selections.lean` and `Documents.lean` prove for every rule that what is
read is in the notation, and that what is in the notation is read if what follows is not a part of it. `std::atoi` of an
integer is the integer there (its range is a matter of `Exec`), `atof` is a parameter. PEGTL's position counts bytes
and line feeds (`position`); this is trusted.

`SchemaSpec.lean` (specification) is the same for type system documents, where the definitions are those of `Gen/Data.lean`,
which the loader (C53) takes. `SchemaTree.lean` collects the accessors of `SchemaLoader`'s visitors. `Descriptions.lean`,
`SchemaParts.lean`, `SchemaFields.lean`, `SchemaNames.lean`, `SchemaDefs.lean`, `SchemaBodies.lean`, `SchemaObjects.lean`,
`SchemaReads.lean` and `SchemaRest.lean` prove the rules in both directions, `Apart.lean` that no rule ends inside a name, and
`SchemaDocuments.lean` puts them together (C63). `IntrospectionText.lean` runs the model in the kernel on the text of the
introspection schema in SchemaLoader.cpp, and compares the result with the types of the generated IntrospectionSchema.cpp.
Executable definitions in schema documents are not given a notation (the loader rejects them).

### Generators (`Verif/Gen`)
`Types.lean`: `TypeVisitor`, the mapping of modifiers to introspection types, C++ expressions, C++ types and template
arguments in both generators. The generated C++ is text: its meaning to a compiler is not modelled; the specification
(`TypesProps.lean`) gives the text of each type reference by recursion or by an inductive relation.

`Data.lean`: the schema document (as handed over by the grammar) and the data of the loaded types (SchemaLoader.h).

`Order.lean`, `OrderProps.lean`, `OrderClient.lean`: the orders of the input types in both generators and which input
types `clientgen` collects for the variables of a request. `std::stable_partition` is `List.filter` twice; unordered sets
are lists. The loop of `clientgen`, which need not end, is an inductive relation. Findings: a field `[A!]` of `A` is
rejected by `schemagen` though it is well-founded, the error for a cycle may name a type outside of it, and `clientgen`
ignores fields of the types `B!` and `[B]` when ordering.

`Names.lean`, `NamesProps.lean`: `getSafeCppName` with its static cache, include guards, and the nesting of namespaces in
every generated file: the calls of `NamespaceScope` in the order of the source are a small language of statements with
scopes; the texts between them are parameters. Findings: different names can have the same C++ name, C++ keywords
are left alone, and an include guard can fail to be an identifier.

`Loader.lean` and `LoaderSpec.lean` … `LoaderClaims.lean`: `SchemaLoader::visitDefinition` for all kinds of definitions,
starting with definitions as the grammar hands them over (`TypeDef`, Data.lean). Positions and C++ names are left out,
`std::stoi` is a parameter, unordered maps are functions. The specification describes a loaded type by its definition and
the extensions which follow it in the text. Findings: extensions in front of the definition are ignored, `@deprecated`
without a reason on enum values is ignored, scalars cannot be extended, variables are accepted as default values.

`Validate.lean` and `ValidateSpec.lean` … `ValidateClaims.lean`: `SchemaLoader::validateSchema` with everything it calls.
The messages are data (`LoadError`) without positions; which one of several overridden built-in types is named (the order
of an unordered map) is left out. Findings: arguments of fields of built-in types are not checked, nor are those of
directives; duplicate definitions are accepted; `getInputIndex` is wrong after reordering.

`Build.lean` and `BuildSpec.lean` … `BuildClaims.lean`: the calls of `schema::Schema` by which `clientgen`
(`addTypesToSchema`) and the written `AddTypesToSchema` build a schema, on top of the model of these calls in `Schema`; the
introspection types are a constant. The address of a new object is any unused one. A null pointer or missing map entry is
the outcome `undefined`; the written code has variables instead, for which a missing one is an error of the C++ compiler.
The proof is an invariant of the calls so far and a Hoare-style predicate (`Outcome`) for success and failure of each step.
Findings: types of arguments of fields of built-in types and of directives are not checked before building, which ends
`clientgen` in a `noexcept` function.

`Response*.lean` (C56): the response type in clientgen (`RequestLoader::findOperation`, `SelectionVisitor`), over the
schemas of `Verif/Validation`, with a bound on the nesting of spreads which a recursion without an end always reaches.
The specification (`ResponseSpec.lean`) flattens the selections (`Flat`), takes the first field of each response name
(`firsts`) and relates the members to them (`Members`). C++ names are left out (they are `getSafeCppName` of the names).
Findings: a cycle of fragments below a repeated field passes validation and makes clientgen recurse forever
(`C56_cyclic_never_ends`); the selections of repeated fields are lost, so that parts of the response cannot be read
(`C56_repeated_field_lost`); what the validator does not look at can still raise an exception (`C56_unknown_fragment`);
"Missing operation" never has the name (`C56_missing_operation`).

`Parse*.lean` (C57): the generated `parseResponse` and `ModifiedResponse<T>::parse`, as functions of the members of C56 (what
the generated code does; its text is not modelled). `Reads` is the lenient relation which the code implements exactly,
`Represents` the strict one (nothing is lost), `Answers` what a server may send (independent of the runtime types: any of the
selected fields may be there). Findings: without `Consistent` an accepted document can be answered with something which
cannot be read (`C57_inconsistent_throws`); enum values with unsafe names cannot be read (`C57_unsafe_enum_value`).

`Input*.lean` (C58, C59): the generated `ModifiedArgument<X>::convert` of enums and input objects, the preamble of the generated
resolver functions (arguments and defaults), and the generated `ModifiedVariable<X>::serialize`, as functions of the types which
`SchemaLoader` keeps. A C++ recursion which might not end is a function of a bound with a third result `depth`; `C58_bound` says
that larger bounds give the same result, and `C58_passed` that there is a bound for valid arguments. The specification `Coerces` is
an inductive relation between values and C++ values which does not mention the functions; `Obtained` is the weaker one which allows
defaults to replace what is given. C58 and C59 are proved by induction on these derivations, `C58_received` by induction on the
bound. `C59_json` composes with C07. Not modelled: the text of `getArgumentDefaultValue` (it writes floats with six digits), and
that the generated client code for variables compiles (ClientGenerator.cpp:277-284 declares variables without their modifiers, and
544 leaves out `Variables::` for nested input objects). Findings: `C58_nullable_default_ignored`, `C58_invalid_replaced`,
`C58_not_an_object`, `C58_default_never_ends`, `C59_unsafe_enum`, `C59_null_scalar`.

### Soundness (C60, C61; `Sound`)

No new code is modelled. `Sound/Spec.lean` says when a service implements a schema: `Serves` is what the C++ compiler
ensures for generated services (an accessor for each field, with the C++ type for its schema type, `StaticType`), and what
the author of the accessors has to ensure (`ValueOf`: leaves which are of their types and not null, objects of the object
types of the field, no null pointers where null is not allowed; `Throws`: exceptions which report at least one error).
`Implements` is the condition of the GraphQL specification on interfaces, which schemagen does not check. `Accepted` has the
assumptions on the document: what the validator accepts, and, since it does not look at all fields (findings of C20, C29,
C32, C33), that repeated response names have the same selections and right arguments. `Supplied` is about the values of
variables, which neither the validator nor the executor check against their types.

The result is `Answers` (C57's specification of a response for a client), so that C61 is a composition. The claim does
not cover subscriptions (C24–C27 describe their deliveries), nor requests with the introspection fields `__schema` and
`__type` other than as fields of some type of the schema which the service has to implement.

Findings: a null pointer for a non-null object and a `schema_exception` without errors give null without an error; a
document with an unknown field below a repeated response name is accepted and fails when executed; `@include` without its
argument, and undeclared variables in literals of custom scalars, are accepted, and make the whole request throw.

### What the validator sees (C62; `View`)

`Verif/Validation` models the rules of the validator over an abstract schema, where a type is the reference which describes it
and nothing is cached. `View/Model.lean` models what is below: the constructor of `ValidateExecutableVisitor`, with its tables
(`_operationTypes`, `_types`, `_directives`, `_enumValues`, `_matchingTypes`, `_scalarTypes`), `getArguments`,
`getScopedTypeFields` and `getInputTypeFields` with their caches, `getFieldType`'s loop, `matchesScopedType` and
`ValidateVariableTypeVisitor`, over the schema objects of `Verif/Schema` (addresses, `weak_ptr::lock`, `WrapType` with its
map of wrappers) and the real sorted maps (`Verif/SortedMap`). `View/Spec.lean` defines `declared`, the abstract schema of
loaded types, and says with `Sees` and `Answers` that each table and each call gives what the functions of the abstract schema
say (`Schema.find`, `operationType`, `findDirective`, `findField`, `overlap`, `variableType`, ...). `Reachable` are all
histories of calls, interleaved with `WrapType` calls of others on the shared schema. So C62 is what justifies the
abstraction of `Verif/Validation`, and joins C53–C55 (schema documents) with C48 (validity of requests). For this C55 was
strengthened: the type objects of fields and arguments are those of `LookupType` and `WrapType`, not only objects which
describe the same type.

Not modelled: the calls of the visitor are taken in any order (a superset of what it does), null entries of vectors, which
`Make` never gives, and `WrapType` of a null pointer for a variable with an unknown type.

Findings: `_operationTypes[strQuery]` (Validation.cpp:1428) makes an entry without type if the schema has no query type (only
possible for schemas which are not written by schemagen); a document may define `skip` or `include` again, with other
arguments, which is why `C62_standard` has a hypothesis; the wrappers which requests need for the types of their variables are
kept in the schema, so a client can make it grow without a bound.

### Introspection requests (C64; `Intro`)

`Intro/Model.lean` models the classes `object::Schema`, `Type`, `Field`, `InputValue`, `EnumValue` and `Directive` with their tables
of resolvers, the argument `includeDeprecated` with its default (by the model of generated argument code, C58), and the resolvers
`__schema` and `__type` which schemagen writes for the query type. The accessors of `Introspection.cpp` are those of `Verif/Schema`.
`withIntrospection` adds them to any implementation of the user. `Intro/Spec.lean` is a reference service without pointers, whose
objects are the loaded definitions themselves. `Simulation.lean` shows for any two services that related objects with related
resolvers give equal responses, for all selections, valid or not; `Reports.lean` relates the schema objects to the definitions
(from C55, for every later state of the schema: the validator adds wrapper types, C62). `Serves*.lean` and `Answers.lean` show that
the reference service implements the declared types of introspection, so C60 applies to it. `Plain.lean` gives sufficient conditions
for the hypotheses of C60, which `Examples.lean` uses for a request to a concrete schema.

Not modelled: `_resolverMutex`, which is held only while an accessor runs; the life time of the schema object (`GetSchema` keeps a
`weak_ptr`, the objects keep `shared_ptr`s, so it lives as long as they do).

Finding: `__type` of an unknown name is an error, and not null as in the specification.

### Threads (C65; `Async`)

`Async/Model.lean` is the executor once more, now for all launch policies: `std::async` may start a thread (for `async | deferred` the
library chooses), `get()` may wait for it, and the destructor of a future waits for its thread, also when an exception destroys the
futures of a selection set or of a list. Programs are trees of what a thread does next (`Proc`): events of user code, locking and
unlocking an object, starting a thread, waiting for one. `Threads.lean` is the semantics of threads, `std::mutex` and `std::future`
which is assumed: any interleaving of the steps of all threads. `Spec.lean` says what a call, its schedules and its answers are; its
reference is `Verif.Request.resolve`, which is the deferred execution of C22 and C23. `Logic.lean` gives programs a denotation
(`Den`: the answer, the possible events, the balance of locks and the threads which are not yet waited for), `Adequate.lean` shows that
an invariant built from it holds in every configuration, with progress and a well-founded measure of the steps, `Sim.lean` and
`Visit.lean` relate each function to that of `Verif.Exec`.

`Valid.lean` joins C65 with C60: no selection set of an accepted request fails as a whole. `Unvalidated.lean` models the overloads for
syntax tree nodes (C66).

`Deliver.lean` models `Request::deliver`, `subscribe` and `unsubscribe` with a launch policy (C67). A callback (`Reaction`) has events,
calls `get()` on its document and goes on depending on what it gets, or does not call it; it may throw. Not modelled: callbacks or accessors
which call the `Request` while other threads run (its members have no locks), filters which throw.

Assumptions: user code answers depending on nothing but the parameters of the call (not on the order of calls), and its futures end;
`std::async` finds resources for a thread; no `std::bad_alloc`; the caller calls `get()`. The lock is modelled for all resolvers,
also those of `__typename`, which the program does not lock (they have no events).

Finding: if a selection set fails as a whole, then with threads the work of the futures which are dropped is still done (and waited
for), while the deferred policy does not do it.

### The request text of generated clients (`ClientText/`, C68)

`Model.lean` models `trimWhitespace`, the loop with `std::getline` which indents the lines, and what a C++ compiler makes of the raw
string literal (it ends with the first `)gql"`). `Spec.lean` defines the same document in other places (`Document.relocate`), the
strings of a document, and where a place of the file is in the literal (`moved`). `AnswerSpec.lean` defines answers which are the same apart
from `locations`. Simplifications: text mode line ends of files and of the generated source are not modelled (a compiler also replaces
nothing in raw strings); `std::isspace` is the one of the "C" locale.

Findings: a request file with a byte order mark passes `clientgen`, but the generated `GetRequestObject()` ends the program
(`C68_byte_order_mark`); with `)gql"` in a string or comment the generated code does not compile (`C68_delimiter`); a block string
with several lines gets two tabs in front of each further line, so that the client sends another value (`C68_block_string`).

### What clientgen collects (`Gen/Loaded*.lean`, C69)

Modelled: `RequestLoader::collectVariables`, `collectInputTypes`, `collectEnums` and the constructor, on the schema of the validator
and the response fields of C56. Types are names. Not modelled: locations of variables and defaults, and the text of defaults; the
order of the input types after `reorderInputTypeDependencies` (C42).

Specification (`LoadedSpec.lean`): `HasField` is the relation "has a field of type", `InVariables` its reflexive and transitive
closure from the types of the variables, `InResponse` the types of the members at any depth, `Declares` what is known of a variable.

Findings: `collectVariables` is `noexcept`, but throws; this happens exactly for a variable of a non-null type whose default value is
a variable, which the validator accepts (`C69_terminates_iff`, `C69_variable_default`). From reading only (the text of the generated
headers is not modelled): the members of `Variables` are declared without the modifiers of their types, so that the generated
`serializeVariables` only compiles for variables of input object types without lists, and a null input object cannot be sent; the
message for a missing operation never has its name, because `_operationName` is still empty.

### Lifetimes (`Life/*.lean`, C70)

Parameters of accessors are full of references: `SelectionSetParams` refers to the state, to directives of the operation and of the
fragments, and the error paths refer to the paths of their parents. The model is the control flow of execution without values: programs
which create, destroy and use objects, start threads and wait for them. A plan says what user code does (what accessors return, where
exceptions are thrown, derived from `std::exception` or not); all plans are considered, also those which no schema has. A program is
checked with an ownership logic (`Safe`): every thread owns objects, borrows others from threads which wait for it, and may only destroy
what it has not lent. `Safe.inv` shows that the logic is sound for all schedules. The theorems speak only of states which are reachable
(`Alive`, `DestroysOnce`, `LeavesNothing`).

Simplifications: an object which is moved is a new one; where it makes no difference objects are created by the function which uses them;
the three kinds of directives of fragments are one object; `std::async` never fails; the syntax tree is kept by the caller.

Findings: `beginSelectionSet` and `endSelectionSet` of objects of generated classes, and of nullable objects and in lists, get dangling
references to the directives of fragments, also with `std::launch::deferred` (`C70_finding_callbacks`). `fragmentDefinitionDirectives` do
not live as long as the comment in GraphQLService.h:156-160 says (`C70_finding_futures`). In `ModifiedResult::convert` for lists,
`parentPath` is declared after `children`, and so is destroyed before the futures which refer to it: with an exception which is not derived from
`std::exception` other elements use a dangling path (`C70_finding_paths`); from reading only: also if `std::async` throws. A document which a
callback keeps until after `unsubscribe` refers to data of the subscription, which have been destroyed (`C70_finding_kept`).

### Generated code for the schema (`Cpp/*.lean`, `GenText/*.lean`, C71)

Modelled: the text of the enums of the header, of the arrays `s_names...`, of `AddTypesToSchema`, of the functions `Add...Details` in
separate files, and of `GetSchema` (only its text). Not modelled: the other parts of the files (argument converters, classes of objects,
resolvers, includes, namespaces).

Specification: `Cpp/Spec.lean` says how a compiler reads text (tokens with the longest match, raw strings up to the first delimiter,
keywords are not identifiers) and how expressions, statements and declarations are written as tokens. `GenText/Calls.lean` says what
they do: variables are declared once, arguments have the types of the parameters, everything else is rejected; the calls are those of
`Verif.TypeSystem.Op`. Neither mentions the generator. `GenText/Spec.lean` has the conditions on schemas (`Writable`).

Simplifications: no line ends other than `\n` (the standard lets compilers replace `\r\n` in raw strings); no limit of the length of
strings (MSVC has one); names are looked up by their text, so that a name of the schema which hides another one in C++ is not noticed
(an enum called `service` or `schema`, for example); the arguments of a function are evaluated from the last to the first, which matters
for addresses only.

Findings: a type called `name`, `id` or `def` gives variables `typename`, `typeid`, `typedef` (`C71_finding_words`, `C71_finding_name`);
enum values which are keywords (`C71_finding_value`); `)md"` in a description (`C71_finding_description`); an enum value `_A` is declared
as `_A` and used as `A` (`C71_finding_enum`); types whose names differ only in the number of underscores (`C71_finding_twice`). In all
these cases `schemagen` succeeds and the code does not compile.

### Requests written in different ways (`Respell/*.lean`, C72)

Nothing new is modelled: the texts are those of C52, the answers those of C22 and C68. The specification of tokens follows the lexical
grammar of GraphQL, except that `$name` and `@name` are one token (the parser does not accept ignored text in them), that a string is
its value as this parser reads it (escape sequences lose only their backslash, C34), and that numbers are their text.

Finding: ignored text between two tokens cannot always be removed (`C72_finding_rejected`), although the GraphQL specification allows
it.

### Generated code of defaults, arguments and input objects (`Cpp/Code*.lean`, `GenCode/*.lean`, C73)

`Model.lean` is the text, byte by byte. `Cpp/CodeSpec.lean` has the expressions, statements and functions which occur, and their
tokens; `Run.lean` says what they do: variables (declared once, not used after `std::move`), literals (an integer literal is decimal
and fits in 64 bits; a floating literal has the value `read`), casts, the constructors and members of `response::Value`, `require` and
`find`. Everything else is `stuck`. `structures` takes the members of a structure to be the fields in their order, and the conversions
of the built-in types and the enums are those of C58 (C75 shows that of the enums, and the structures). `print`, how `operator<<` writes a `double`, is a parameter, and
`FloatOk` says that what is printed is read as the same number.

Findings: a default string with `)gql"` ends the raw literal, and what follows is compiled as code (`C73_raw_string`); a zero byte
(`\u0000`) ends it when it is converted to `std::string` (`C73_zero`); floats keep six digits (`C73_six_digits`); `-0.0` becomes `0.0`
(`C73_minus_zero`); arguments `foo` and `Foo` of one field do not compile (`C73_clash`).

Not modelled: `std::ofstream`. The rest of the resolver is C74, the structures of input objects are C75.

### Generated classes of objects (`Cpp/Object*.lean`, `GenObject/*.lean`, C74)

Modelled: `outputObjectImplementation` (SchemaGenerator.cpp:1365-1567) with `--no-stubs`, and `getResultAccessType`. The table of
resolvers is a `std::map` (ordered insertion which keeps an element with the same key, and assignment). A resolver runs as in C73 up
to its arguments; then `std::unique_lock`, the accessor, `unlock` and `ModifiedResult::convert` are events, and an accessor may throw.
The destructor of the lock is modelled (`leave`).

Elsewhere: the stubs (1459-1478, C77), `resolve_schema` and `resolve_type` (1569-1596, C78), the header with the declarations (C76), and what
`ModifiedResult::convert` does (C18 and C19). That two methods with the same class and name cannot be defined is the rule of
C++ which `C74_methods` is about.

Finding: fields `foo` and `Foo` of one type, or a field `_typename`, give a class which defines a method twice (`C74_twice`).

### Generated enums and structures (`Cpp/Type*.lean`, `GenTypes/*.lean`, C75)

Modelled: the enums and structures in the header (SchemaGenerator.cpp:202-253), and their conversions in the source (605-724, those of
input objects from C73). An enumerator is its number; `static_cast` from a number to an enum and back is the identity (the underlying
type is `int`: an enum with 2^31 values is not considered). `std::find` compares whole strings. `resolve` of `ModifiedResult` calls the
function with the value (C19 says what it does otherwise). `Compiles` has the rules of C++ which depend on the schema: different names,
complete types, and that a name which is used in a structure keeps its meaning in it. `std::vector` of an incomplete type is counted as
an error, although C++17 allows it, since C42 never needs it.

With it, the conversions which C73 takes as given are those of the library only (`libraryConversions`; C17 and C58 are about them).

Findings: a field with the name `default` cannot be compiled (`C75_keyword`), nor one with the name of its type (`C75_meaning`), nor an
input object which contains itself (`C75_recursive`; the generator refuses it, C42). A string in the variables of a request is an enum
value, one in the document is not.

### Generated declarations of classes (`Cpp/Class*.lean`, `GenClass/*.lean`, C76)

`GenClass/Model.lean` writes the forward declarations, the interfaces and the classes of objects of the header (without
`--separate-files`). `Cpp/ClassSpec.lean` says what such declarations are, as tokens; `Cpp/ClassUnique.lean` proves that no text has two
readings. `GenClass/Run.lean` says what they mean: interfaces are in the namespace of the schema and objects in its namespace `object`; a
name in a class is looked for in the class (members, then the base classes with their names) before the namespaces; a call means the
functions of that name in the class, or else those of the bases, and must mean just one; a function of a base is overridden by one of the
same name and parameters, whose result must be the same. `std`, `service`, `response` and `object` are taken to be the namespaces, and
access (`public`, `private`) does not matter, as all calls are from methods of the class.

The source is that of C74: `C76_resolvers` compares the two readings. `C76_calls` is about the calls and conversions which C74 proves to
happen (`C74_answer`): the type which is given to `ModifiedResult<U>::convert` is the one of `ResultTraits`.

Findings: `C76_common_field` (two interfaces with a common field, without stubs, do not compile), `C76_mutation_interface`,
`C76_covariant`, `C76_empty_object`, `C76_object_name` (a type named `Object` is silently replaced by `service::Object`).

Not modelled: `--separate-files`.

### Stubs and `Operations` (`Cpp/Stub*.lean`, `GenStub/*.lean`, C77)

`GenStub/Model.lean` writes the code of an object with stubs, of which the rest is that of C74, and the class `Operations`.
`GenStub/Run.lean` says what they mean: the result type of a definition outside of its class is looked up in the namespace, its
parameters in the class; members are initialised in the order of their declarations, after the base class; `std::move` leaves a null
pointer; the first of two elements of a map with the same key stays. A schema with a type called `Operations`, which is then declared
twice, is not considered.

Finding: `C77_repeated` (two root types for one kind of operation do not compile).

### The resolvers of introspection (`Cpp/Hidden*.lean`, `GenHidden/*.lean`, C78)

`GenHidden/Model.lean` writes the last part of an object, so that the text of `outputObjectImplementation` is complete. The meaning of the
two methods is a resolver as in `Exec` (the static type of the result, and what it does for all parameters), which is compared with
the one of `Intro/Model.lean`: this links the generated code with C64. The text of the whole object is read in one
way only. `introspection` means the namespace of the library; a schema with a type of
this name, which would hide it, is not considered.

Finding: `C78_finding_unknown`.

### A service of generated classes (`GenService/*.lean`, C79)

`GenService/Spec.lean` puts together what C74, C77 and C78 read from the generated text: the objects for the operations are those which the
generated constructor of `Operations` hands to `service::Request`; the type names of an object are those which the generated constructor of
its class hands to `service::Object`; `__schema` and `__type` are the generated methods. What is left to the user are the accessors, and that
they return values of the declared types is a hypothesis (`ObjectsFor`), as in C60; so is that the validator is the one of C62. The
conversion of arguments and the call of the accessor in a generated resolver are C74 and are not run again here: `serves` is about the
resolver as a whole.

## Fidelity

The model has been compared with data of the repository (`tools/fidelity`): the errors of all documents of ValidationTests.cpp, with
messages and locations; the documents of the other tests; and the text of C71 with all generated samples, byte for byte;
the text of C77 with `Operations` and stubs of `samples/unified`, and the text of C78, byte for byte.

## Axioms

`#print axioms` of the theorems named in MANIFEST.json gives nothing but subsets of
{`propext`, `Classical.choice`, `Quot.sound`}; `vcheck` checks this for each build.
