#!/usr/bin/env python3
"""Regenerates /verif/properties.jsonl (run from anywhere)."""
import json, os
P = []
def p(id, title, statement, quantifier, why, anchors):
    P.append(dict(id=id, title=title, statement=statement, quantifier=quantifier,
                  why_tests_cant=why, anchors=anchors))

p("C01", "Base64 round trip",
  "Decoding the Base64 text produced for any byte vector returns exactly that byte vector, without throwing; in particular two different byte vectors never get the same text.",
  "every std::vector<uint8_t>, of any length",
  "There are infinitely many byte vectors and three length residues with different bit-packing code; a test samples a handful.",
  ["src/Base64.cpp: Base64::toBase64, Base64::fromBase64", "include/graphqlservice/internal/Base64.h: toBase64(uint8_t), fromBase64(char)"])
p("C02", "Base64 output shape",
  "The Base64 text of n bytes has exactly 4*ceil(n/3) characters, of which exactly (3 - n mod 3) mod 3 trailing ones are '=' and all others belong to the 64 character RFC 4648 alphabet; encoding never throws.",
  "every byte vector", "Length and alphabet claims range over all inputs.",
  ["src/Base64.cpp: Base64::toBase64, verifyToBase64"])
p("C03", "Base64 decoder accepts exactly canonical text",
  "The decoder accepts a text iff it is a sequence of alphabet characters forming a canonical encoding (unused trailing bits zero, no dangling single character), followed by at most one '=' if the number of alphabet characters is a multiple of four and at most two otherwise; otherwise it throws. Accepted texts which decode to the same bytes differ only in the number of trailing '='.",
  "every character sequence, valid or not", "Rejection of every malformed text cannot be enumerated.",
  ["src/Base64.cpp: Base64::fromBase64, verifyFromBase64"])
p("C04", "Response map: insertion order, first value wins, lookup exact",
  "After any sequence of emplace_back(name, value) calls on an object value, iteration yields the first value added under each distinct name in the order of first insertion; find/operator[] return exactly that value, or end()/throw iff the name was never added; emplace_back returns true iff the name was new.",
  "every sequence of names and values, of any length", "The object keeps a second sorted index vector; an index bug shows only for particular insertion orders.",
  ["src/GraphQLResponse.cpp: Value::emplace_back, Value::find, Value::operator[]", "include/graphqlservice/GraphQLResponse.h: Value::MapData"])
p("C05", "Response values: copies are equal and keep lookups working",
  "Copying a response value of any depth gives the same value, in which every name lookup gives the same result as in the original, and which compares equal unless it contains a NaN; the copy throws iff the value contains an empty custom scalar.",
  "every value tree of any shape and depth", "Copy is recursive and rebuilds the index; every tree shape must work.",
  ["src/GraphQLResponse.cpp: Value::Value(const Value&), Value::operator=="])
p("C06", "Response values: typed access never reinterprets",
  "Typed get/set/release succeed exactly for the documented type pairs (exact type, Int read as Float, Int assigned to Float, String/JSON string for Enum and ID where allowed) and throw otherwise, leaving the value unchanged; release moves the contents out and leaves a value of the same type with empty/default contents (exception: release as ID of a text which is not Base64 throws after the text was moved out).",
  "every value, every requested type, every sequence of accesses", "Covers every type pair and every history of set/release calls.",
  ["src/GraphQLResponse.cpp: Value::get, Value::set, Value::release, Value::maybe_enum, Value::typeOf"])
p("C07", "JSON round trip",
  "Serialising a response value to JSON and parsing it again gives the same value, up to the documented normalisation (strings and enum values come back as JSON strings; scalars come back as the plain JSON value they hold), for every value without empty scalars, non-finite numbers and NUL characters; a string or name with a NUL character is cut off there.",
  "every value tree of any shape and depth", "Nested lists and objects of unbounded depth drive a hand written stack machine.",
  ["src/JSONResponse.cpp: toJSON, writeResponse, parseJSON, ResponseHandler"])
p("C08", "JSON integers are never silently truncated",
  "When parsing JSON, an integer which fits 64 bits but not the 32 bit Int type makes the parse throw, wherever it occurs, and nothing else makes it throw; every integer that is accepted has exactly the value written in the text (integers beyond 64 bits become Float values).",
  "every 64 bit integer event at every position in every document", "Boundary positions at any nesting depth.",
  ["src/JSONResponse.cpp: ResponseHandler::Int, Uint, Int64, Uint64"])
p("C09", "sorted_map/sorted_set behave as a finite map/set",
  "Starting from an empty sorted_map, any sequence of emplace, erase, operator[], at, find, clear calls gives the same results as a mathematical finite map where emplace keeps an existing entry; the same for sorted_set.",
  "every operation sequence over every key type with a strict weak order", "Bugs in binary search positions appear only for particular sizes and orders.",
  ["include/graphqlservice/internal/SortedMap.h: sorted_map, sorted_set"])
p("C10", "Name ordering used by lookup tables is a strict total order",
  "The 'shorter or less' string order used by lookup tables is irreflexive, transitive and total on distinct strings, so a table built from any list of distinct names finds every name in it and no other.",
  "all strings, all tables", "Ordering axioms quantify over all triples of strings.",
  ["include/graphqlservice/internal/SortedMap.h: shorter_or_less", "src/Introspection.cpp / generated code: lookup tables via sorted_map"])
p("C11", "Error paths run from the root to the failing field",
  "The path an exception of a field's accessor is reported with lists exactly the response names and list indices from the operation root to the field, in that order; every error reported by a field or by anything below it, at any depth, has a path beginning with the path of that field. Exceptions: an error which comes out of a future (or out of a directive) may have no path, and an unknown field is reported with the path of its parent.",
  "every nesting depth and every mixture of fields and list elements", "Depth is unbounded; the path is built by walking parent links backwards.",
  ["src/GraphQLService.cpp: buildErrorPath, buildErrorValues, addErrorPath"])
p("C12", "Error objects have the documented shape",
  "Every error reported in a response is an object with a message string, with locations iff the line number is positive (exactly one {line, column}), with path iff the path is non-empty, in that order; one object per error, in order; and the client library parses the same errors back.",
  "every list of errors", "Quantifies over every list of errors with arbitrary messages, locations and paths.",
  ["src/GraphQLService.cpp: buildErrorValues, addErrorMessage, addErrorLocation", "src/GraphQLClient.cpp: parseServiceResponse, parseServiceError"])
p("C13", "Selection results: one entry per response name, in document order",
  "The data object produced for a selection set has exactly one entry per distinct response name among the fields selected through all applicable fragments which are not skipped, in order of first occurrence in the document; the first field of each response name counts, and if that one is itself skipped by @skip/@include the name is left out.",
  "every selection set, fragment nesting and directive combination", "Arbitrary nesting of fragments and repeated names.",
  ["src/GraphQLService.cpp: SelectionVisitor, Object::resolve"])
p("C14", "A failing field does not disturb its siblings",
  "When the resolver of a field throws, exactly that field becomes null and one or more errors for it are reported; the values and errors of all sibling fields are those they would have alone. The response of a selection set fails as a whole only for malformed directives or arguments, or unknown fragments, of the selection set itself, or if the begin/endSelectionSet callbacks of its object throw.",
  "every result tree and every set of failing fields", "Failure positions multiply with tree shape.",
  ["src/GraphQLService.cpp: Object::resolve, SelectionVisitor::visitField", "include/graphqlservice/GraphQLService.h: ModifiedResult::resolve"])
p("C15", "@skip and @include",
  "A selection with @skip and/or @include directives is executed iff the skip condition is absent or false and the include condition is absent or true, except that @include is not looked at when @skip is there; malformed directive arguments produce an error instead of a silent decision.",
  "all directive lists, all argument values", "All combinations of both directives and every argument shape.",
  ["src/GraphQLService.cpp: DirectiveVisitor::shouldSkip"])
p("C16", "Argument literals and variables evaluate to the written value",
  "Evaluating an argument literal gives the value the document wrote, with every variable replaced by the value supplied for it at any depth; an unknown variable is reported as an error with its location, never replaced by a default.",
  "all literals of any nesting and all variable maps", "Literals nest arbitrarily.",
  ["src/GraphQLService.cpp: ValueVisitor"])
p("C17", "Argument conversion honours nullability and list nesting",
  "Converting an argument with a stack of nullable/list modifiers succeeds iff null occurs only where a nullable modifier allows it, lists occur exactly at list modifiers, and each leaf converts; the result has exactly the same shape and order as the input.",
  "all modifier stacks and all values", "Modifier stacks and values are unbounded.",
  ["include/graphqlservice/GraphQLService.h: ModifiedArgument::require, find", "src/GraphQLService.cpp: Argument<T>::convert"])
p("C18", "Result conversion honours nullability and list nesting",
  "Resolving a value with a stack of nullable/list modifiers gives null exactly for absent values (and null object pointers) and a list with one element per source element, in order, with the errors of the elements in order; exception: list elements whose selection set fails as a whole (unknown fragment, malformed directive or argument) are dropped from the list.",
  "all modifier stacks and all results", "Modifier stacks and lists are unbounded.",
  ["include/graphqlservice/GraphQLService.h: ModifiedResult::convert"])
p("C19", "Sub-field requirements",
  "A field of a scalar type with a selection set and an object field without one are reported as errors with the position of the selection set or of the field, for every stack of modifiers, and no user code is run below the field and no value is returned for it; the error appears exactly if the accessor returned some leaf or object. A field of an enum type with a selection set is not reported: its value is returned as if there were none.",
  "all fields of all types", "Ranges over every combination of type and modifier.",
  ["src/GraphQLService.cpp: blockSubFields, requireSubFields", "include/graphqlservice/GraphQLService.h: ModifiedResult::convert"])
p("C20", "Validated documents execute in finitely many steps",
  "Validation of every document ends, whatever was validated before. In an accepted document no fragment reaches itself, and then the fragment spreads of every operation can be expanded into a finite tree of selections, unless somewhere below the fragment a selection set selects two fields with the same response name but different selections (the validator does not look below the second one).",
  "every document", "Cycles may be of any length and go through any nesting of fields and inline fragments.",
  ["src/Validation.cpp: visitFragmentSpread", "src/GraphQLService.cpp: SelectionVisitor::visitFragmentSpread"])
p("C21", "Mutation root fields run serially in document order",
  "The accessors of the root fields of a mutation run in document order, each returning before the next is called; a root field which returns leaf values (with any modifiers) or an interface/union object is completed before the next one starts. The selection sets of other object fields are resolved afterwards, again in document order.",
  "every mutation document and every mixture of synchronous and deferred resolvers", "Depends on the schedule of deferred work.",
  ["src/GraphQLService.cpp: OperationDefinitionVisitor, SelectionVisitor::getValues, Request::resolve"])
p("C22", "Operation selection",
  "Request::resolve executes exactly the operation with the requested name (the first operation of the document if the name is empty), with the fragments of the document; an invalid document, a missing operation or a subscription passed to resolve gives {data: null, errors: [...]} and runs no resolver. A malformed directive, argument or unknown fragment at the root selection set itself is not reported in a document: the future throws.",
  "every document and every operation name", "Every list of operation definitions.",
  ["src/GraphQLService.cpp: Request::findOperationDefinition, Request::resolve"])
p("C23", "Variable values: supplied, else default, else absent/null",
  "For every variable of a query or mutation, the resolvers see the supplied value if one is supplied, otherwise its declared default, otherwise null; variables not declared by the operation are not visible. Exceptions: the directives of fragment definitions, and subscriptions, see only the supplied values.",
  "every operation and every variable map", "Every variable set.",
  ["src/GraphQLService.cpp: OperationDefinitionVisitor::visit, SubscriptionDefinitionVisitor::buildRegistration"])
p("C24", "Subscription keys identify at most one active subscription; no events after unsubscribe",
  "At every moment all the active subscriptions have pairwise different keys and a new subscription never gets the key of an active one (the key of an ended one may be used again). After unsubscribe(key) the callback which was registered only under that key is never called again unless it is subscribed again, whatever calls follow, also from inside callbacks; except by an event which had already selected it when one of its callbacks called unsubscribe.",
  "every history of subscribe, unsubscribe and deliver calls", "Histories are unbounded.",
  ["src/GraphQLService.cpp: Request::subscribe, Request::unsubscribe, Request::deliver"])
p("C25", "deliver notifies each matching subscription exactly once",
  "After any history of calls, an event for a field calls exactly the callbacks of the active subscriptions to that field whose registered arguments and directives all pass the filters, each once, in the order of their keys, each with a future of the response of executing the registered selection on the event's object (or the default one), and changes no subscription. It fails, calling none, if there are no subscriptions in the schema, no object, or if the begin/endSelectionSet callbacks of the object throw something other than a schema_exception.",
  "every registry reachable by any history, every event", "Histories are unbounded.",
  ["src/GraphQLService.cpp: Request::deliver", "include/graphqlservice/GraphQLService.h: SubscriptionData"])
p("C26", "Event filters",
  "An event with an argument filter reaches a subscription to its field iff every argument the subscription was registered with passes the filter, whatever its directives; an event with maps of arguments and directives reaches it iff every argument and every directive it was registered with is in the maps with an equal value, whatever else is in the maps. In particular the overloads without maps reach only subscriptions without arguments and directives.",
  "all filter maps and registered arguments", "All finite maps.",
  ["src/GraphQLService.cpp: Request::deliver overloads"])
p("C27", "Failed subscribe leaves no trace; unknown unsubscribe is harmless",
  "If an asynchronous subscribe fails (invalid document, or telling the subscription object about it fails), the Request is in exactly the state it was in before; an exception of an accessor is no such failure. Unsubscribing a key which is not active changes nothing (and the asynchronous overload throws). If telling the object about the end fails, the asynchronous unsubscribe throws and the subscription stays active.",
  "every registry and request", "Every reachable registry.",
  ["src/GraphQLService.cpp: Request::subscribe overloads, Request::unsubscribe overloads"])
p("C28", "Validation: variable usages respect types",
  "In an operation a variable is accepted at an input position iff the operation declares it and its use there is allowed in the sense of the GraphQL specification (IsVariableUsageAllowed and AreTypesCompatible, with a non-null default of the variable or of the position). In the definition of a fragment every variable is accepted; it is checked where the fragment is spread.",
  "all pairs of wrapped types", "Type wrappers nest arbitrarily.",
  ["src/Validation.cpp: ValidateExecutableVisitor::validateVariableType"])
p("C29", "Validation: accepted literals inhabit the expected input type",
  "A literal is accepted at an input position iff it fits the expected type: list items are all of the item type (a single value is not taken for a list), enum literals name a member, input objects have distinct and known fields of the right types and all the required ones, no null for non-null unless there is a default. Whenever the values of the variables are of their types, what a resolver gets for an accepted literal, and for accepted arguments, is a value of the type.",
  "all literals and all input types", "Literals and types nest arbitrarily.",
  ["src/Validation.cpp: validateInputValue, ValidateArgumentValueVisitor"])
p("C30", "Validation: document structure rules",
  "An accepted document has only executable definitions, unique operation names, unique fragment names and an anonymous operation only alone; every fragment is spread in an operation or in another fragment; the variables of an operation are distinct and each one is written in it or in a fragment it reaches.",
  "every document", "Documents are unbounded.",
  ["src/Validation.cpp: ValidateExecutableVisitor::visit and helpers"])
p("C31", "Validation verdict does not depend on earlier documents",
  "The errors reported for a document depend only on the schema and that document, not on the documents validated before by the same Request, valid or not, as long as the schema has the root types of their operations. A parsed document is validated each time until nothing is wrong with it; that call and all later ones with the same parsed document report nothing, even calls to another Request.",
  "every history of validated documents", "Histories are unbounded.",
  ["src/Validation.cpp: ValidateExecutableVisitor::getStructuredErrors, visitOperationDefinition"])
p("C32", "Validation: every selected field exists",
  "In every selection set of an accepted operation each field is one of the type it is selected on, and it has selections iff its type is composite. This holds for every selection set on a path of fields which do not share their response names with fields with other selections.",
  "every document and schema", "Documents nest arbitrarily.",
  ["src/Validation.cpp: visitField, visitSelection"])
p("C33", "Validation: fields with the same response name agree",
  "In every selection set of an accepted operation (as in C32) there is one field for each response name such that its arguments are valid and every other field with this response name has the same type and is the same field with the same arguments, unless the two are selected on different object types.",
  "every document", "Conflicts may be split across arbitrarily many fragments.",
  ["src/Validation.cpp: visitField, ValidateArgument::operator=="])
p("C34", "String literals denote the written text",
  "A string literal is accepted exactly if it is one of the grammar's string literals (characters U+0020 to U+FFFF, tab, lone carriage return; a backslash only in an escape sequence; block strings between triple quotes). Its value is the text between the quotes, where a text without backslashes stands for exactly itself. (Escape sequences are not decoded, which is a finding: each stands for its letter or digits without the backslash, and a block string keeps everything.) A description written without backslashes in quotes is exactly its text.",
  "all string literals", "All strings.",
  ["src/SyntaxTree.cpp: ast_node::unescaped_view, ast_string, ast_block_string", "include/graphqlservice/internal/Grammar.h"])
p("C35", "Numeric literals: the grammar accepts the specification's tokens",
  "At a place where the text goes on with something which cannot continue a number, an integer literal is read exactly if the text is an IntValue of the GraphQL specification, and a float literal exactly if it is a FloatValue which has a fraction or an exponent but not both (a finding: both together are rejected). What is read as a number is such a token, and all of it.",
  "all character sequences", "All strings.",
  ["include/graphqlservice/internal/Grammar.h: integer_value, float_value"])
p("C36", "Wrapped types are interned under every thread schedule",
  "For every interleaving of any number of threads, two finished calls of WrapType return the same object exactly if they wrapped the same type and both or neither asked for a list; the object wraps this type, with the kind asked for as long as only LIST and NON_NULL are asked for. No call reads the cache while another one changes it, and some unfinished call can always go on (no deadlock).",
  "every number of threads, every interleaving", "Schedules are unbounded.",
  ["src/Schema.cpp: Schema::WrapType"])
p("C37", "Schema type lookup",
  "However a schema was built, LookupType returns the type which was added last under that name, and throws the error \"Type not found name: X\" if there is none; types() lists everything that was added, in order.",
  "every sequence of AddType calls", "All registration orders.",
  ["src/Schema.cpp: Schema::AddType, Schema::LookupType"])
p("C38", "Introspection deprecation filtering and kind gating",
  "However a schema was built, introspection of a type gives the kind, name and description it was made with and the members it was last given, in order; fields and enumValues leave out the deprecated ones unless includeDeprecated is true; possibleTypes of an interface are the objects which were given it; accessors which do not apply to the kind give null. __schema gives all the types and directives in order and the root types last set.",
  "all types", "All member lists.",
  ["src/Introspection.cpp: Type::getFields, Type::getEnumValues"])
p("C39", "Client splits a service response into data and errors",
  "For every response object the client gets exactly the data member and the list of errors of the response, whatever the order of members and with unknown members ignored.",
  "all response values", "All object shapes.",
  ["src/GraphQLClient.cpp: parseServiceResponse"])
p("C40", "Client variables and results round trip through modifiers",
  "A client variable serialised with a stack of nullable/list modifiers and then read by the service with the same modifiers gives the original value; a service result parsed by the client with the same modifiers gives the original result. The client reads a built-in leaf only from a value of its own type.",
  "all modifier stacks and values", "Unbounded nesting.",
  ["include/graphqlservice/GraphQLClient.h: ModifiedVariable, ModifiedResponse", "include/graphqlservice/GraphQLService.h: ModifiedArgument"])
p("C41", "Type modifier translation in the generators",
  "The name and the modifiers which the generators derive from a type reference in a document stand for exactly this reference, different references give different ones. Whatever the generators make of them is the reference again: the introspection type built from the modifiers, the modifiers read back from an introspection type, the C++ expression of the type for the introspection schema, the C++ types of arguments, of client results and of resolvers, and the template arguments of the modifiers. Reading an argument with these modifiers accepts exactly the values of the type reference (a custom scalar type T! also accepts null).",
  "all type references", "Unbounded nesting.",
  ["src/GeneratorLoader.cpp: TypeVisitor", "src/RequestLoader.cpp: unwrapSchemaType, getSchemaType, getInputCppType, getOutputCppType", "src/SchemaGenerator.cpp: getIntrospectionType, getTypeModifiers", "src/SchemaLoader.cpp: getInputCppType, getOutputCppType", "src/ClientGenerator.cpp: getTypeModifierList"])
p("C42", "Generated input types are declared before use",
  "schemagen emits exactly the input types of the schema, each after all the input types of its fields (of any modifiers), and fails exactly if an input type contains itself through its fields; the error names a type which contains such a type. clientgen collects exactly the input types which the variables of the operation mention, directly or through fields, each once, and emits each after the input types of its nullable fields which are no lists; it comes to an end if no input type contains itself. (A field B! or [B] is not taken into account by clientgen, so that the struct B may follow its use.)",
  "all input type graphs", "All graphs.",
  ["src/SchemaLoader.cpp: reorderInputTypeDependencies", "src/RequestLoader.cpp: collectInputTypes, reorderInputTypeDependencies"])
p("C43", "Generated names and namespaces",
  "The C++ name of a GraphQL name is an identifier which C++ does not reserve, is always the same, keeps letters and digits, and is the name itself unless that is reserved (keywords are not avoided, and two names can get the same C++ name). Whatever code uses namespace scopes, all namespaces it opens are closed at the end; in every generated file they are closed innermost first, and the declarations are in the namespaces where the other files look for them. Include guards are identifiers for file names of letters, digits, underscores and dots.",
  "all names, all nestings", "All strings and all nestings.",
  ["src/SchemaLoader.cpp: getSafeCppName", "src/GeneratorUtil.cpp: NamespaceScope, IncludeGuardScope", "src/SchemaGenerator.cpp, src/ClientGenerator.cpp: outputHeader, outputSource, outputSeparateFiles"])
p("C44", "Malformed JSON is handled without undefined behaviour",
  "Wherever a JSON text is cut off or becomes malformed, parseJSON never looks into an empty stack and throws nothing but the integer overflow error; it does not report the malformed text but returns the value read so far.",
  "every JSON document and every point in it at which reading stops", "Every prefix of every document.",
  ["src/JSONResponse.cpp: parseJSON, ResponseHandler::setValue, ResponseHandler::getResponse"])
p("C45", "Comparison of response values is structural equality",
  "Two response values compare equal exactly when they have the same type and the same content: the same members under the same names in the same order, the same elements, the same text (and the same from-JSON mark), the same number. Comparison is symmetric and transitive; it is reflexive except for values containing a NaN.",
  "every pair and triple of response values, of any depth", "Every pair of trees.",
  ["src/GraphQLResponse.cpp: Value::operator==, Map::operator==, List"])
p("C46", "Directives of enclosing fragments",
  "Inside of any nesting of fragments which apply to an object, the accessors of its fields get, for each directive name, the arguments of the innermost fragment definition, fragment spread or inline fragment which has that directive (each of the three kinds separately); the fields of a nested object do not inherit them.",
  "every nesting of fragments, every directive", "Nesting is unbounded.",
  ["src/GraphQLService.cpp: SelectionVisitor::visitFragmentSpread, SelectionVisitor::visitInlineFragment", "include/graphqlservice/GraphQLService.h: SelectionSetParams"])
p("C47", "Only subscriptions are registered",
  "subscribe registers something only for a valid document whose single operation is the requested one and is a subscription; it registers the supplied variables, the expanded selection and the callback, under the name of the only root field which is not skipped with the values of its arguments and directives, or under the empty name if every root field is skipped.",
  "every document, operation name and variables", "Documents are unbounded.",
  ["src/GraphQLService.cpp: Request::subscribe, SubscriptionDefinitionVisitor"])
p("C48", "Validation accepts exactly the valid documents",
  "For a schema which has all the types it mentions, validation reports no error iff the document is valid in the sense of a set of inference rules, written independently of the visitor: rules for literals, variables, arguments, directives, selections, fragments, operations and documents. The same holds after any number of other documents.",
  "every schema, every document, every history of validated documents", "Documents and schemas are unbounded and recursive.",
  ["src/Validation.cpp: ValidateExecutableVisitor"])
p("C49", "Identity of wrapped types",
  "Type expressions made of LookupType and WrapType, evaluated at any time while a schema is built, give the same object exactly if they are expressions of the same type reference, and introspection (kind, name, ofType) of the object reads back exactly this reference at any later time. An expression has a value exactly if its innermost name was added. (For schemas in which every type is added once, under its own name.)",
  "every sequence of calls, every nesting of list and non-null", "Histories and nestings are unbounded.",
  ["src/Schema.cpp: Schema::WrapType, Schema::LookupType", "src/Introspection.cpp: Type::getKind, Type::getName, Type::getOfType"])
p("C50", "Parsing is total and places every node in its text",
  "For every text, parseString and parseSchemaString come to an end with exactly one outcome: a syntax tree or a parse error, never a null tree. In a tree, every node's text is a part of the input at the node's position, and its children lie inside of it, one after the other, in the order of the text.",
  "every byte sequence", "Texts and trees are unbounded.",
  ["src/SyntaxTree.cpp: parseString, parseSchemaString, parse_tree", "include/graphqlservice/internal/Grammar.h"])
p("C51", "Trying the smaller grammar first makes no difference",
  "parseString tries the grammar of executable documents and then that of mixed documents; for every text the outcome is the one of the mixed grammar alone. The same holds for parseSchemaString with the grammar of schema documents.",
  "every byte sequence", "Texts are unbounded.",
  ["src/SyntaxTree.cpp: parseString, parseSchemaString", "include/graphqlservice/internal/Grammar.h: executable_document, schema_document, mixed_document"])
p('C53', 'What schemagen keeps of a schema document', "For every parsed schema document without a problem, the loaded scalars, enums, input objects, unions, interfaces and objects are the definitions of that kind in the order of the text; each has its description, and its fields, values, members and interfaces are those of the definition followed by those of the extensions of that name between it and the next definition of the name. Every field and argument has the name, description, type and default value which the text says; a default value without variables is the value which the same text has as an argument in a request (variables count as null). A name has the kind of its last definition, and its index is that of the last type with the name. Fields are deprecated by their last @deprecated, enum values by their last @deprecated with a reason. A document is rejected exactly if it contains an executable definition, an extension of a scalar, or null as the default value of a non-null type outside of ignored extensions; the first such problem is reported. Exceptions: an extension before the definition of its type is ignored without an error; @deprecated without a reason on an enum value is ignored.", 'all documents of type system definitions and extensions, in any order, with any repetitions', 'documents are unbounded, and the effect of an extension depends on everything in front of it', ['src/SchemaLoader.cpp: SchemaLoader::visitDefinition, visitObjectTypeDefinition, visitObjectTypeExtension, getInputFields, getOutputFields, DefaultValueVisitor', 'include/SchemaLoader.h'])
p('C54', 'Which schemas schemagen accepts', 'For every schema document which was loaded, schemagen accepts the schema if and only if: no built-in type name is defined; each field of an input object and each argument (of a field which is not of a built-in type) has a built-in type, a scalar, an enum or an input object as its type; each field of an object or interface has a built-in type or a type which is not an input object; the input objects can be ordered such that each comes after those its fields mention (which means, if names are unique, that none contains itself); the given operation types are objects and there is a query, or else there is an object called Query (for the introspection schema: none are given); objects implement only interfaces; the members of unions are objects. The error, if there is one, is true of the type it names. In an accepted schema each of the types is as in the document, with the kind of every field and argument type filled in, the fields which an implemented interface has marked as inherited, the fields of the mutation type applied instead of got, each object listing the unions with it in order, and the default operation types filled in. Exceptions: arguments of fields of built-in types and of directives are not checked; a name may be defined several times; the indices of input types are not updated when they are reordered.', 'all loaded schema documents, for the introspection schema and for others', 'the conditions quantify over all types, fields and arguments and over all orders of the input objects', ['src/SchemaLoader.cpp: SchemaLoader::validateSchema, fixupInputFieldList, fixupOutputFieldList, reorderInputTypeDependencies'])
p('C52', 'Which executable documents are parsed, and what is read from them', 'For every text: the parser gives a tree with only operations and fragment definitions exactly if the text is an executable document, and then the operations, fragments, selections, arguments, directives, variables, types, default values and literals which the visitors of execution and validation read from the tree (with their lines and columns) are exactly those which the text is the notation of; no node they need is missing, and no text is the notation of two documents. The notation is that of the GraphQL specification of June 2018, with these exceptions: items in braces, brackets and parentheses and consecutive directives need ignored text between them (so {a{b}c} is rejected); there is no ignored text after $ and @; a number has no fraction if it has an exponent; the value of a string keeps its escape sequences without the backslash; a line feed ends a comment and a lone carriage return does not; vertical tab and form feed are ignored text; source characters end at U+FFFF; the position of a spread or inline fragment is directly after its three dots.', 'all byte sequences, and all documents with all ways of writing them down', 'documents are nested without a bound, and whether an alternative of the grammar is taken depends on all the text behind it', ['include/graphqlservice/internal/Grammar.h', 'src/SyntaxTree.cpp: parseString, executable_selector', 'src/GraphQLService.cpp: ValueVisitor, DirectiveVisitor, SelectionVisitor, OperationDefinitionVisitor', 'src/Validation.cpp: ValidateExecutableVisitor, ValidateArgumentValueVisitor, ValidateVariableTypeVisitor'])
p('C55', 'The schema built from a schema document is the document', 'For every set of loaded types whose names are not empty, are different and are not those of introspection: building the schema (in clientgen, and in the code schemagen writes) succeeds exactly if every type, interface, location and root type which is mentioned exists, and then the schema, as seen by LookupType and introspection, has the introspection types and the loaded types in order and nothing else; each has its kind, name and description, its fields, arguments, input fields, enum values, interfaces and possible types in the order of the document, with their descriptions, deprecation reasons, default values, and with types which read as they were written (lists and non-null); an interface has the objects which implement it as possible types; the directives and root types are those of the document. Without introspection the written code leaves out the descriptions. A document which is accepted by the checks of C54 can still fail to build: exactly if an argument of a directive, or of a field of a built-in type, has a type which does not exist (or a directive has an unknown location, which the grammar excludes); then LookupType throws, in clientgen from a noexcept function.', 'all loaded types, all choices of addresses of new objects', 'the number of types, members and nested list types is not bounded, and wrapper types are shared in a cache which depends on everything which was built before', ['src/RequestLoader.cpp: RequestLoader::buildSchema, addTypesToSchema, getSchemaType', 'src/SchemaGenerator.cpp: Generator::outputSource, outputInterfaceIntrospection, outputObjectIntrospection, outputIntrospectionFields, getIntrospectionType', 'src/IntrospectionSchema.cpp: AddTypesToSchema', 'include/graphqlservice/internal/Schema.h'])
p('C56', 'The response type of a request has the fields which the request selects', 'If clientgen generates code for a request document, the document is valid, the code is for the operation which the name asks for (the first one for an empty name), and the generated Response structure has one member for each response name which the selections of the operation select, with those of all their fragments whatever the type condition, in the order of the first fields with these names; its type is that of the field in the schema (name, lists, nullability; String for __typename, a nullable __Schema and __Type for the introspection fields of the query type) and, if this is an object, interface or union, its members are in the same way those which the selections of the first field with the name ask for. An invalid document, or one without the operation, is rejected with an exception. For a valid document with the operation, where no selection set selects two fields with one response name but different selections (below the operation or a fragment), there is always a result; if the fragments have no cycles, clientgen ends. (Exceptions, as findings: an accepted cycle of fragments makes clientgen recurse until the stack is exhausted; fragments below repeated fields are not validated, but looked up; the selections of repeated fields are lost.)', 'all schemas in which nothing is defined twice, all documents and operation names, all depths of nested fragments', 'documents nest without bound, and the visitor keeps separate sets of names for fragments, which have to be merged to the same result as one pass over the text', ['src/RequestLoader.cpp: RequestLoader::RequestLoader, findOperation, collectFragments, SelectionVisitor::visitField, visitFragmentSpread, visitInlineFragment, mergeFragmentFields, unwrapSchemaType', 'include/RequestLoader.h: ResponseField'])
p('C57', 'The generated client reads a response into the generated structures without loss', "The parseResponse function which clientgen generates for a request gives, for every response in which no object has two members of one name, exactly the value the response is read as: a member of the structure is read from the member of the response with its name (null where the type allows it, lists element by element, an object member by member, a number, string, boolean, the bytes of a Base64 ID, the index of an enum value, or any value of a custom scalar); what is not there, or is not an object where one is expected, is empty, and what is not a list where one is expected is an empty list; it throws exactly if a leaf (or a null where it is not allowed) has not the type of the schema. Neither the order of the members nor members with other names matter. Every answer which a server may send to the request (every object with members for any of the selected fields, on whatever type) is read without an exception and completely, provided that no selection set selects two fields with one response name but different selections, and that the names of enum values are distinct and are their own C++ names. (Exceptions, as findings: a server's answer to an accepted document without the first condition can make it throw; an enum value such as _HAPPY, which the service sends, is never accepted; missing members and values of the wrong kind are not noticed.)", 'all schemas in which nothing is defined twice, all requests for which code is generated, all responses', 'responses nest without bound, and the answers of a server depend on the types of the objects, which the generated code does not know', ['src/ClientGenerator.cpp: Generator::outputSource, outputModifiedResponseImplementation, getTypeModifierList, getResponseFieldCppType', 'include/graphqlservice/GraphQLClient.h: ModifiedResponse::parse', 'src/GraphQLClient.cpp: ModifiedResponse::parse'])
p('C58', 'The resolver gets the arguments which the request gives, null, or their defaults', 'The arguments which the code generated by schemagen passes to a resolver: if the arguments of the request are valid, it gets each argument which is given as the C++ value of its type (null where allowed, lists element by element, numbers, strings, booleans, the bytes of a Base64 ID, the index of an enum value, any value of a custom scalar, and input objects, nested without bound, field by field in the same way); one which is not given is null if its type allows null, whether or not it has a default, and otherwise is its default. A valid value is never replaced by a default. For all arguments, valid or not, whatever reaches the resolver is the value which was given, or null for one which was not given and can be null, or the declared default of an argument or field which has one. If there are no defaults, the resolver gets arguments exactly if those of the request are valid. The result does not depend on how deep the recursion is allowed to go, once it is deep enough. (Exceptions, as findings: the default of an argument which can be null is never used when the argument is missing; a value which is not valid is replaced by the default without an error; anything is accepted for an input object whose fields all have defaults; if a default refers to itself the conversion never ends.)', 'all enums and input types in which nothing is defined twice, all resolvers, all argument values, all depths of nesting', 'argument values and input types nest and refer to each other without bound; unit tests only see the samples', ['src/SchemaGenerator.cpp: Generator::outputSource (ModifiedArgument<>::convert), outputObjectImplementation, getArgumentDeclaration, getArgumentAccessType', 'include/graphqlservice/GraphQLService.h: ModifiedArgument::require, find', 'src/GraphQLService.cpp: ModifiedArgument::convert', 'src/GraphQLResponse.cpp: Value::find, operator[]'])
p('C59', 'A generated service gets exactly the values which a generated client serialises', 'Every C++ value of an input object (or list of arguments) which the code generated by clientgen serialises as variables is the value which the code generated by schemagen for the same schema passes to the resolver, whatever is null, and however deep lists and input objects nest; also if it is written as JSON and read again in between, for numbers which JSON can represent and strings without NUL. Provided that custom scalars are not null (and, with JSON, are not changed by it), and that enum values are their own C++ names. (Exceptions, as findings: the service refuses the enum value IN__USE because the client sends IN_USE; a null custom scalar in a std::optional arrives as no value.)', 'all enums and input types in which nothing is defined twice, all values of the generated structures', 'values nest without bound, and the client and the service are generated by different programs', ['src/ClientGenerator.cpp: Generator::outputSource (ModifiedVariable<>::serialize)', 'include/graphqlservice/GraphQLClient.h: ModifiedVariable::serialize', 'src/GraphQLClient.cpp: ModifiedVariable::serialize', 'src/SchemaGenerator.cpp: Generator::outputSource (ModifiedArgument<>::convert)', 'src/JSONResponse.cpp: toJSON, parseJSON'])
p('C60', 'An accepted request only fails where the service itself does', 'If the objects of a service implement a schema (every object has an accessor for every field of its type, which, called with arguments of their types, returns, now or later, a value of the type of the field, or fails), then a request with a query or mutation which the validator accepts for that schema, and with values of the right types for its variables, is executed, and every error in the response has a message of the service (from an accessor, or from what it does at the begin or the end of a selection set), never one of the library: no unknown field, no unknown variable, no invalid argument of a condition, no missing or superfluous selection. If there is no error the data is an answer to the operation: an object with exactly the selected fields for its type, nothing twice, all values of the types of their fields. If the service never fails, there are no errors. (What the validator does not look at has to be right too, as findings: fields which share their response name with a field on another type have the same selections and right arguments, @skip and @include have their argument, and variables in the literals of custom scalars are declared. The service is trusted not to return a null pointer for an object which is not nullable, and to throw no schema_exception without errors: both give null without an error.)', 'all schemas whose object types implement their interfaces, all services for them, all documents which are accepted, all values of the variables, values and futures of accessors, all depths', 'relates the validator, the variables, the directives and the executor for every schema, service and document; a test sees one combination', ['src/Validation.cpp: ValidateExecutableVisitor', 'src/GraphQLService.cpp: SelectionVisitor, Object::resolve, Request::resolve, DirectiveVisitor, ValueVisitor', 'include/graphqlservice/GraphQLService.h: ModifiedResult::convert'])
p('C61', 'What the service answers is what the client reads', 'From end to end: a client generated by clientgen and a service which implements the same schema and never fails. The response to the operation of the client is written as JSON; reading this JSON succeeds, there are no errors in it, and the generated parseResponse succeeds and returns a C++ value with every field of the data: numbers, strings, booleans, bytes of IDs, enum values, custom scalars, null, lists and nested objects; nothing is lost or changed, except for what JSON itself cannot tell apart. Under the assumptions of C60, for responses which JSON can represent and enum values which are their own C++ names.', 'all schemas, services, accepted documents, variables and client operations', 'composes request, execution, JSON and the generated client for all schemas and documents', ['src/GraphQLService.cpp: Request::resolve', 'src/JSONResponse.cpp: toJSON, parseJSON', 'src/GraphQLClient.cpp: parseServiceResponse', 'src/ClientGenerator.cpp: Generator::outputSource (parseResponse)', 'src/RequestLoader.cpp: RequestLoader'])
p('C62', 'The validator sees exactly the schema which the schema document declares', 'If a schema document is accepted, has no type name twice and mentions no unknown types where schemagen does not check them, then the schema is built, with or without introspection, and whatever a validator of this schema has validated before, and whoever else wraps types of the same schema at the same time between its steps, it knows exactly the declared schema: a name is found exactly if it is the name of a declared or built-in type, with its kind; the operations have the declared root types; exactly the declared and built-in directives are found, with their locations in requests and their arguments; enums have exactly their declared values; two composite types may be spread into each other exactly if they have an object type in common; the fields of a composite type are found with their types and arguments, together with __typename, and, for the query type and with introspection only, __schema and __type; input objects have their fields, arguments and input fields their types and whether they have a default value and one other than null; a variable type is accepted exactly if its innermost type is a declared input type; and two type pointers are equal exactly if the types are. The caches never change an answer. The requests which are accepted for the declared schema are the valid ones (C48). (Findings: for a schema which is built by hand and has no query type, the first selection of another type makes an entry without type for queries, so that a later query is not reported but dereferences null; a schema document may redefine the directive skip or include with other arguments, the service still reads them as conditions; the types of variables in requests stay in the schema as long as it lives, without a bound.)', 'all schema documents, all histories of calls of the validator, all addresses the allocator chooses, all interleavings with other users of the schema', 'relates the generators, the schema objects, the tables and the caches of the validator for every schema and every history; a test sees one', ['src/Validation.cpp: ValidateExecutableVisitor::ValidateExecutableVisitor, getArguments, getScopedTypeFields, getInputTypeFields, getFieldType, matchesScopedType, ValidateVariableTypeVisitor', 'include/Validation.h', 'src/SchemaGenerator.cpp', 'src/GeneratorUtil.cpp', 'src/Schema.cpp: Schema::LookupType, Schema::WrapType'])
p('C63', 'Which schema documents are parsed, and what schemagen reads from them', 'A concrete syntax of schema documents is given, independently of the parser: descriptions, the definitions and extensions of schema, scalars, objects, interfaces, unions, enums and input objects, directive definitions with their locations, arguments, fields, default values with their text, directives. Every text which has this syntax is parsed, and schemagen reads from the tree exactly the definitions the text is written from, with their names, descriptions, types, default values, deprecations and locations, in their order; the syntax is unambiguous; conversely, if a text is parsed, then definitions are read from its tree, and if none of them is an operation or a fragment, then the text has this syntax and is the text of these definitions. So schemagen loads a text exactly if it is the text of definitions which it loads. The introspection schema of the library has exactly the types and directives of the text schemagen reads for it. The differences from the GraphQL specification are: fields, arguments, enum values and operation types need ignored text between them; true, false and null are allowed as enum values; there must be no ignored text between the directives of a schema extension and its brace, otherwise the brace is taken for a query and schemagen rejects the document; only the first part of a description, up to the first escape sequence, is read.', 'all byte sequences, all lists of definitions', 'ranges over all texts and all schemas; tests parse a few', ['include/graphqlservice/internal/Grammar.h: schema_document, type_system_definition, type_system_extension', 'src/SyntaxTree.cpp: schema_selector, parseSchemaString', 'src/SchemaLoader.cpp: visitDefinition and the visit functions', 'src/IntrospectionSchema.cpp: AddTypesToSchema'])
p('C64', 'Introspection requests report the schema document', 'For a service which is generated with introspection, from a schema document without duplicate type names and with a query type: whatever requests were validated before, every request, valid or not, has the same side effects and the same response as with a reference service whose introspection objects are read directly off the definitions of the document: __schema tells all types, the root types and the directives with their arguments and locations; __type and every type tell their kind, name, description, fields with arguments, types, default values and deprecation (deprecated fields and enum values only with includeDeprecated: true), interfaces, possible types, enum values, input fields and, for lists and non-null types, the type they wrap; each object tells its __typename. If the validator accepts a request, which may select introspection fields together with the fields of the service, then each error of the response is one of the service of the user, or reports the unknown name of a __type field; without errors the data answers the request. (Differences from the GraphQL specification: __type of an unknown name is an error and not null; an includeDeprecated argument which is not a boolean, in a request which is not validated, counts as absent.)', 'all schema documents, all services, all documents, operations and variables, all histories of the validator', 'compares all responses for all schemas; tests look at the introspection of one', ['src/IntrospectionSchema.cpp: object::Schema, object::Type, object::Field, object::InputValue, object::EnumValue, object::Directive', 'src/Introspection.cpp', 'src/SchemaGenerator.cpp: outputObjectImplementation (resolve_schema, resolve_type), GetSchema', 'src/Schema.cpp', 'src/GraphQLService.cpp: Request::resolve'])
p('C65', 'Threads change nothing but the order of the work', 'For a service whose callbacks answer independently of the order in which they are called, and with any launch policy (std::launch::async, deferred or both) passed to Request::resolve, followed by get(): in every schedule of the threads, the call comes to an end, without a deadlock, and returns or throws exactly what it does with std::launch::deferred; when get() returns, all the threads which the call has started have ended, and no lock of an object is held. Everything that user code does with std::launch::deferred has been done, and nothing else, unless a selection set failed as a whole (a callback of the set throws, or directives or arguments in it do not evaluate; then the threads of the fields which were already started still do their work, which the deferred policy does not do). With std::launch::deferred all work is done in the thread of the caller, and its order is fixed; for mutations the order is the same with all policies. The accessors of one object are never called at the same time by two threads. For a request which the validator accepts, to a service which implements the schema and does not fail, the answer in every schedule has no errors and answers the operation, and exactly the same user code runs as with std::launch::deferred.', 'all services, documents, variables, launch policies, and all schedules of the threads', 'the schedules of the threads cannot be enumerated by a test, nor controlled', ['src/GraphQLService.cpp: Request::resolve, Object::resolve, SelectionVisitor, ModifiedResult<Object>::convert', 'include/graphqlservice/GraphQLService.h: ModifiedResult::convert, ModifiedResult::resolve', 'src/SchemaGenerator.cpp: outputObjectImplementation (resolverLock)'])
p('C66', 'Resolving a syntax tree node skips the validation and nothing else', 'The overloads of Request::resolve which take the root node of a syntax tree (and not an ast) answer, in every schedule and with every launch policy, what the others answer for the same document once it is marked as validated; so for a document which the validator accepts there is no difference. A mutation is done entirely in the thread of the caller, in order, whatever the launch policy.', 'all services, documents, operation names, variables, launch policies and schedules', 'compares two code paths for all documents and schedules', ['src/GraphQLService.cpp: Request::resolveUnvalidated, Request::findUnvalidatedOperationDefinition, Request::resolve'])
p('C67', 'Delivering events with threads', 'Request::deliver, subscribe and unsubscribe with any launch policy, where neither the callbacks nor the accessors change the subscriptions meanwhile: in every schedule of the threads the call comes to an end, without a deadlock, and deliver returns or throws what it does with std::launch::deferred (the exception of the first callback which throws, in the order of the subscriptions, even if another callback throws earlier in time); subscribe and unsubscribe leave the same subscriptions and return the same key. When the call returns or throws, all threads have ended, those of all callbacks included, and no lock of an object is held. Everything that the callbacks and the service do with std::launch::deferred has been done. Nothing else has been done if deliver returns, the callbacks all call get() on their documents and no selection set fails as a whole. (Otherwise threads go on: if a callback throws, the later callbacks are called all the same, which they are not with std::launch::deferred.) With std::launch::deferred everything happens in the thread of the caller, first the accessors of all events, then the callbacks in order. The accessors of one object are never called by two threads at the same time, also not for different subscriptions.', 'all services, subscriptions, filters, callbacks (which may throw or ignore their documents), launch policies and schedules', 'the schedules of the threads cannot be enumerated by a test, nor controlled', ['src/GraphQLService.cpp: Request::deliver, Request::subscribe, Request::unsubscribe', 'include/graphqlservice/GraphQLService.h: SubscriptionCallback'])
p('C68', 'The request text in the generated client is the request', 'If clientgen can read a request file, and the file does not begin with a byte order mark, does not contain )gql" and has no block string with more than one line, then GetRequestText() of the generated client is a text which the parser accepts (so that the noexcept GetRequestObject() does not end the program), and it is the text of the same document as the file: the same operations, fragments, variables, arguments, directives and values in the same order, where the first line with anything in it is line 2 and everything is two columns further to the right. The document is as valid there as in the file (so that GetRequestObject() may skip the validation), and every service gives the same answer to it, with the same calls of user code in the same order, except for the locations in errors. Each of the three exceptions is needed.', 'all request files, schemas, services, variables and operation names', 'the indentation and trimming act on arbitrary texts: strings, comments and line ends anywhere can be affected', ['src/ClientGenerator.cpp outputGetRequestImplementation', 'src/RequestLoader.cpp getRequestText, trimWhitespace, constructor', 'src/SyntaxTree.cpp parseString, parseFile', 'src/Validation.cpp ValidateExecutableVisitor', 'src/GraphQLService.cpp Request::resolve'])
p('C69', 'clientgen collects every type which a request needs', 'When clientgen has loaded a request document for an operation name, the operation is the one which Request::resolve runs for the same name (and for the own name of the operation). The variables are those which the operation declares: in order, with the names, the named types and the modifiers of the declared types, and with the default values which the same literals have as arguments in a request (if no variables occur in them). The referenced input types are exactly the input types of the variables and of the fields of such types, at any depth; the referenced enums are exactly the enum types of variables, of fields of these input types, and of fields of the response at any depth; each is there once. The search ends for all schemas, also if input types contain themselves. Exception (finding): a valid request in which a variable of a non-null type has a variable as its default value terminates the process, and nothing else does.', 'all closed schemas, all documents whose response can be loaded (C56), all operation names', 'the set of collected types is a closure over arbitrary, possibly cyclic, graphs of input types and arbitrary selections', ['src/RequestLoader.cpp: RequestLoader::RequestLoader, collectVariables, collectInputTypes, collectEnums, findOperation', 'include/RequestLoader.h'])
p('C70', 'What accessors and callbacks borrow is alive when they run', 'With any launch policy and in every schedule, while a request is resolved: the state and the directives of the operation are alive whenever an accessor, beginSelectionSet or endSelectionSet, or the future returned by an accessor, runs; the directives of the fragments around a field are alive while its accessor runs, and in beginSelectionSet and endSelectionSet of the root and of objects which are resolved while their field is visited (not of others: there the references dangle, and they also dangle in the futures which accessors return, for all three kinds of fragment directives); if all exceptions are derived from std::exception, the error paths with all their parents are alive while accessors and callbacks run and whenever the path of an error is built. Nothing is destroyed twice, and when get() has returned or thrown all threads have ended and everything which was created for the request has been destroyed. The same is true of Request::deliver, if the callbacks call get() for the document or destroy it, and the subscriptions are not changed meanwhile (a document which is kept until after unsubscribe refers to what has been destroyed).', 'all shapes of results and all exceptions which user code throws, all launch policies, all schedules of the threads', 'a reference which dangles only in some schedule, after some exception, is not seen by tests', ['include/graphqlservice/GraphQLService.h: SelectionSetParams, field_path, ModifiedResult::convert', 'src/GraphQLService.cpp: Object::resolve, SelectionVisitor, OperationDefinitionVisitor::visit, Request::resolve, Request::deliver'])
p('C71', 'The code which schemagen writes for the schema means the loaded schema', 'If all names of types, fields, arguments, enum values and directives are names, no variable or enum or enum value of the generated code is a C++ keyword (types called def, id and name, and enum values such as new, are excluded), enum values keep their names in C++ (no value like _A), no two types get the same C++ name, descriptions and deprecation reasons do not contain the delimiter )md" and defaults not )gql", objects implement interfaces of the schema, directives have known locations, and operation types are object types of the schema: then the text which schemagen writes (enums, arrays of names, AddTypesToSchema, and the functions for objects in separate files) can be read by a C++ compiler, in one way only, every identifier in it is declared once and has the type it is used with, and a call of AddTypesToSchema on any schema object makes exactly the calls, in the same order and with the same arguments, which build the loaded schema directly (without descriptions if there is no introspection); so the schema of the service is the one which clientgen validates with, and it is the same with and without separate files.', 'all loaded schemas, all texts of descriptions, defaults and reasons, all options and namespaces, all choices of addresses, all schema objects which were there before', 'the generated code is only compiled for the samples; a quote, delimiter, comma or name which breaks it depends on the schema of the user', ['src/SchemaGenerator.cpp: Generator::outputHeader, outputSource, outputObjectIntrospection, outputSeparateFiles, getIntrospectionType', 'src/RequestLoader.cpp: RequestLoader::addTypesToSchema', 'samples/unified/TodaySchema.cpp: AddTypesToSchema', 'src/IntrospectionSchema.cpp: AddTypesToSchema'])
p('C72', 'How a request is written does not matter', 'The text of an executable document consists of tokens in exactly one way (names, variables, directive names, numbers as text, strings as values, punctuators). If two request texts have the same tokens, that is, they differ only in white space, commas, comments, line ends, a byte order mark, and in how strings are spelled, and both are parsed, then the documents read from them are the same apart from line and column numbers, and every service gives the same answer: user code is called in the same order with the same arguments, and the response is the same apart from the locations of its errors. A request which is parsed is still parsed when it is written with any ignored text between all of its tokens. The exception: where ignored text between two tokens is removed, a request can be rejected (the selections b and c in {a{b}c} need a separator).', 'all request texts of any length, all ways to write the same tokens, all services, operation names and variables', 'the ways to write a request are unbounded, and the answer is a function of the whole pipeline from text to response', ['include/graphqlservice/internal/Grammar.h: ignored, document', 'src/SyntaxTree.cpp: parseString', 'src/GraphQLService.cpp: Request::resolve', 'src/Validation.cpp: ValidateExecutableVisitor'])
p('C73', 'The code which schemagen writes for defaults, arguments and input objects computes what is meant', 'If names of fields and types are names, no C++ name of a type is a keyword and no two types have the same, fields of an input object (and arguments of a field) have different names even if the first letter is written as a capital, no string in a default contains )gql" or a zero byte, and every float in a default has the same value when it is written with six digits and read again by the compiler (-0.0 does not): then the text which schemagen writes for default values, for the conversion of input objects and for reading the arguments in a resolver can be read by a C++ compiler, in one way only; the code for a default value builds exactly this value, whatever its kind and nesting; the conversion of an input object and the arguments of a resolver are, for all values of a request, the values or the exception of which C58 and C59 say so (defaults for what is missing or cannot be converted, nested objects, enums, lists, null), every one in the variable of its own argument, none of them used after it was moved from.', 'all default values, input objects, arguments and namespaces, all values in requests, all depths of nesting', 'the generated code is only compiled for the samples; what the code does for another schema depends on the text written for its names and defaults', ['src/SchemaGenerator.cpp: Generator::getArgumentDefaultValue, getArgumentDeclaration, getArgumentAccessType, outputSource, outputObjectImplementation', 'include/graphqlservice/GraphQLService.h: ModifiedArgument', 'src/GraphQLResponse.cpp: Value'])
p('C74', 'A generated object answers exactly its fields, each through its own accessor with its own arguments', 'If the names of an object type, its interfaces, unions, fields and results are names, no C++ name of them is a keyword, the arguments are as in C73, the names of the fields are different even if the first letter is written as a capital, and none is __typename or _typename (nor __schema, __type, _schema or _type on the query type with introspection): then the class which schemagen writes for it (with --no-stubs) can be read by a C++ compiler, in one way only, and defines no method twice; the object is of its interfaces, its unions and its own type; it can be asked for each of its fields, __typename, and (for queries, with introspection) __schema and __type, and for nothing else; asked for a field, it converts the arguments as in C58, C59 and C73 and throws the exception of the first which fails before anything else happens; otherwise it locks the mutex of the object, calls the accessor of this field (get or apply) once, with the arguments in the order of the schema, unlocks the mutex, and only then converts the result, as a value of the C++ type of the field with the lists and nulls of the schema; the mutex is released if the accessor throws, and this exception is the outcome; __typename is the name of the type. Two fields of which the names differ in the case of the first letter only, or a field _typename, make the class define a method twice, so that it does not compile.', 'all object types, their fields, arguments and interfaces, all requests for a field with all argument values, accessors which return or throw', 'the generated classes are only compiled and run for the samples; a wrong accessor, argument order or lock depends on the text written for another schema', ['src/SchemaGenerator.cpp: Generator::outputObjectImplementation, getResultAccessType, getTypeModifiers', 'include/graphqlservice/GraphQLService.h: FieldParams, ResolverParams, ModifiedResult', 'include/graphqlservice/internal/SortedMap.h: shorter_or_less'])
p('C75', 'Generated enums arrive as the enumerator of that name and are answered by it; generated structures have the members the conversions fill', 'If the names of the enums, their values, the input objects and their fields are names, no C++ name of them is a keyword, the C++ names of the types are different, as are the values of an enum and the C++ names of the fields of an input object, no field has the C++ name of an enum or input object which is the type of a field beside it, and default values are as in C73: then the declarations of enums and structures which schemagen writes in the header, and the conversions which it writes in the source, can be read by a C++ compiler, in one way only; the enumerators of an enum are the values of the schema in their order; an argument of the type of the enum is converted to the enumerator with the same name if it is an enum value in the document or a string in the variables, and for every other value (a string in the document, a name which is not a value) "not a valid X value" is thrown; a result is answered with the name of the enumerator, so that what is answered is understood as the same enumerator; the structure of an input object has a member for every field, in the order in which the conversion fills them, with the C++ name of the field and the type which the conversion returns (lists and nulls in the order of the schema); the conversions of enums and input objects, together with those of the library, do what C58 and C59 say; and if every input object is behind those which it contains (C42), the header compiles. A field named as a C++ keyword, or as its type, makes the header not compile, as does an input object which contains itself.', 'all sets of enums and input objects, all values of enums, all argument values, all results', 'the generated code is only compiled and run for the samples; a wrong array, index or member depends on the text written for another schema', ['src/SchemaGenerator.cpp: Generator::outputHeader, Generator::outputSource, getFieldDeclaration', 'src/SchemaLoader.cpp: getInputCppType, getCppType', 'src/GraphQLResponse.cpp: Value::maybe_enum', 'include/graphqlservice/GraphQLService.h: ModifiedArgument::ArgumentTraits'])
p('C76', 'The classes in the header declare what the source defines and calls, with the types it uses', 'If the names of interfaces, objects and their fields are names, no C++ name of them is a keyword, the C++ names of all types are different and none is "Object" or the name of a function or other member of the classes, objects have fields, the fields of an object have C++ names which differ by more than the case of the first letter, and an object has the fields of its interfaces with the same types and arguments: then the classes and interfaces which schemagen writes in the header can be read by a C++ compiler, in one way only; there is one for each interface and object, a class comes after its interfaces, and all names of classes are declared before; a class declares just the methods which the source defines for the object and those which its table of fields calls; the name of the function (getX or applyX) by which a resolver asks for the value of a field means just one function, of the class or, without stubs, of an interface, which takes values of the types to which the arguments are converted and gives the type of results which is converted to the answer (lists and nulls in the order of the schema); without stubs, the functions which a user has to define in a derived class are just one for each field, with these types; with stubs none is left undefined, and what is marked override does override a function of an interface, with the same result. Without stubs, this needs that no two interfaces of an object have a field in common, else the call is ambiguous. It does not hold for a mutation type which implements an interface, a field of an object with a narrower type than in the interface (which GraphQL allows), an object without fields, or a type called Object (which is taken for the base class).', 'all sets of interfaces and objects with all their fields and arguments, with and without stubs and introspection', 'the generated code is only compiled for the samples; whether a declaration fits a definition or a call depends on the text written for another schema', ['src/SchemaGenerator.cpp: Generator::outputHeader, outputObjectDeclaration, getFieldDeclaration, getResolverDeclaration', 'src/SchemaLoader.cpp: getOutputCppType', 'include/graphqlservice/GraphQLService.h: Object, ModifiedResult::ResultTraits'])
p('C77', 'Stubs are the functions which a class declares and say what is not implemented; Operations gives each kind of operation its object', 'For all objects as in C76 and C74: the code which schemagen writes for an object with stubs can be read by a C++ compiler in one way only; without its stubs it is the code without stubs; it has one stub for each function which the class in the header declares for a field, of the same name and with the same types of results and parameters (those in front of the name of the class are looked up in the namespace, the others in the class), and no others; without stubs there are none. A field whose function is not overridden converts its arguments, calls the stub while the mutex of the object is locked, and ends with the exception "C::f is not implemented", with the C++ names of the class and the function, and the mutex unlocked. For all lists of root types with one object type of the schema for each kind of operation: the declaration and the constructor of the class Operations can be read in one way only; the constructor is the one which is declared, and takes a pointer to the class of each root type, in the order of the schema; what it makes has for each kind of operation of the schema the object which was given for it, in the map where the request looks for it and as a member, and no others: an operation of another kind finds no object. If a schema gives two root types for one kind, the code does not compile.', 'all object types with all fields and arguments, all lists of root types and all objects which are given', 'the generated code is only compiled for the samples, in which all stubs are overridden', ['src/SchemaGenerator.cpp: Generator::outputObjectImplementation, outputHeader, outputSource', 'include/graphqlservice/GraphQLService.h: Request', 'src/GraphQLService.cpp: Request::Request'])
p('C78', 'The generated object for queries answers __schema and __type by the schema which it was made with', 'For all object types as in C74 which are written as the object for queries with introspection, with or without stubs: the code can be read by a C++ compiler in one way only; behind that of C77 it has two methods and nothing else; without introspection, and for the other objects, there is nothing. The object has the fields __schema and __type. __schema gives the schema object. __type reads its argument: if there is no argument "name", or it is not a string, the answer is an error which says so; otherwise it is the object for the type which the schema has under this name, as a value which can be null. If the schema has no such type, it is the error of LookupType and not null, so that the part of the code for a null pointer is never used (finding). These two fields behave as those of the service for which C64 says that it answers all requests by the schema.', 'all object types with all fields, all schemas, all arguments', 'the tests ask the sample service for a few types which exist', ['src/SchemaGenerator.cpp: Generator::outputObjectImplementation', 'src/Schema.cpp: Schema::LookupType', 'src/SchemaLoader.cpp: SchemaLoader::getIntrospectionNamespace'])
p('C79', 'A service which is made of generated classes answers every valid request', 'For all accepted schema documents with distinct names and one root type for each kind of operations, such that the classes can be written as in C74, C77 and C78: take the generated Operations, made with an object of the right type for each kind of operations; the generated class of the object for queries with introspection; and objects of the generated classes, whose accessors, written by the user, return values of the declared types or fail. Operations has an object of the right type for each kind of operations of the schema. An object says only of those interfaces and unions that it belongs to them of which its type is a possible type. For a query or mutation which the validator accepts, which may select __schema and __type too, with the variables which it declares: each error in the response has a message of an accessor or is about a name for __type which is not the name of a type; if there is no error, the data is an answer to the operation, with no member twice.', 'all schemas, all objects and accessors, all valid requests', 'the tests run a few requests against one or two generated services', ['src/SchemaGenerator.cpp: Generator::outputSource, Generator::outputObjectImplementation', 'src/GraphQLService.cpp: Request::resolve', 'src/Validation.cpp: ValidateExecutableVisitor'])
out = os.path.join(os.path.dirname(os.path.abspath(__file__)), "..", "properties.jsonl")
with open(out, "w") as f:
    for x in P:
        f.write(json.dumps(x) + "\n")
print(len(P))
