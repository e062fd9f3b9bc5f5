import Verif.Base64.Props
import Verif.SortedMap.Props
import Verif.Value.Props
import Verif.Json.Props
import Verif.Resp.Refine
import Verif.Errors.Props
import Verif.Modifiers.Props
import Verif.Exec.ValueProps
import Verif.Exec.Examples
import Verif.Request.Examples
import Verif.Resp.Eq
import Verif.Subs.Examples
import Verif.Resp.EqProps
import Verif.Exec.DirectiveProps
import Verif.Validation.Examples
import Verif.Schema.WrapExamples
import Verif.Schema.TypesExamples
import Verif.Grammar.Peg
import Verif.Grammar.Rules
import Verif.Grammar.PegProps
import Verif.Grammar.WellFormed
import Verif.Grammar.Eval
import Verif.Grammar.Tree
import Verif.Grammar.Parse
import Verif.Grammar.Fallback
import Verif.Grammar.Examples
import Verif.Grammar.Spec
import Verif.Grammar.Lex
import Verif.Grammar.Numbers
import Verif.Grammar.Strings
import Verif.Grammar.SyntaxSpec
import Verif.Grammar.Ast
import Verif.Grammar.Syntax
import Verif.Grammar.Values
import Verif.Grammar.Directives
import Verif.Grammar.TypeRefs
import Verif.Grammar.Selections
import Verif.Grammar.Documents
import Verif.Grammar.DocumentExamples
import Verif.Grammar.SchemaSpec
import Verif.Grammar.Apart
import Verif.Grammar.Descriptions
import Verif.Grammar.SchemaTree
import Verif.Grammar.SchemaParts
import Verif.Grammar.SchemaFields
import Verif.Grammar.SchemaNames
import Verif.Grammar.SchemaDefs
import Verif.Grammar.SchemaBodies
import Verif.Grammar.SchemaObjects
import Verif.Grammar.SchemaReads
import Verif.Grammar.SchemaRest
import Verif.Grammar.SchemaDocuments
import Verif.Grammar.SchemaExamples
import Verif.Grammar.IntrospectionText
import Verif.Gen.Types
import Verif.Gen.TypesProps
import Verif.Gen.Data
import Verif.Gen.Order
import Verif.Gen.OrderProps
import Verif.Gen.OrderClient
import Verif.Gen.OrderExamples
import Verif.Gen.Names
import Verif.Gen.NamesProps
import Verif.Gen.Loader
import Verif.Gen.LoaderSpec
import Verif.Gen.LoaderProps
import Verif.Gen.LoaderTypes
import Verif.Gen.LoaderResult
import Verif.Gen.LoaderClaims
import Verif.Gen.Validate
import Verif.Gen.ValidateSpec
import Verif.Gen.ValidateProps
import Verif.Gen.ValidateStages
import Verif.Gen.ValidateClaims
import Verif.Gen.Build
import Verif.Gen.BuildSpec
import Verif.Gen.BuildLogic
import Verif.Gen.BuildDecls
import Verif.Gen.BuildDetails
import Verif.Gen.BuildAll
import Verif.Gen.BuildProps
import Verif.Gen.BuildClaims
import Verif.Gen.Response
import Verif.Gen.ResponseSpec
import Verif.Gen.ResponseProps
import Verif.Gen.ResponseClaims
import Verif.Gen.ResponseExamples
import Verif.Gen.ParseExamples
import Verif.Gen.Input
import Verif.Gen.InputSpec
import Verif.Gen.InputProps
import Verif.Gen.InputComplete
import Verif.Gen.InputSound
import Verif.Gen.InputClaims
import Verif.Gen.InputRoundtrip
import Verif.Gen.InputExamples
import Verif.Sound.Spec
import Verif.Sound.Convert
import Verif.Sound.Eval
import Verif.Sound.Sets
import Verif.Sound.Execute
import Verif.Sound.Claims
import Verif.Sound.Examples
import Verif.View.Model
import Verif.View.Spec
import Verif.View.Tables
import Verif.View.Represents
import Verif.View.Construct
import Verif.View.Steps
import Verif.View.Fields
import Verif.View.FromBuilt
import Verif.View.Claims
import Verif.View.Examples
import Verif.Intro.Simulation
import Verif.Intro.Model
import Verif.Intro.Spec
import Verif.Intro.Props
import Verif.Intro.Reports
import Verif.Intro.Serves
import Verif.Intro.ServesAll
import Verif.Intro.Answers
import Verif.Intro.Claims
import Verif.Intro.Plain
import Verif.Intro.Examples
import Verif.Async.Model
import Verif.Async.Threads
import Verif.Async.Logic
import Verif.Async.Adequate
import Verif.Async.Sim
import Verif.Async.Spec
import Verif.Async.Visit
import Verif.Async.Props
import Verif.Async.Valid
import Verif.Async.Unvalidated
import Verif.Async.Examples
import Verif.Async.Behaves
import Verif.Async.Deliver
import Verif.Async.DeliverSpec
import Verif.Async.DeliverSim
import Verif.Async.DeliverProps
import Verif.Async.DeliverExamples
import Verif.ClientText.Model
import Verif.ClientText.Spec
import Verif.ClientText.Consumes
import Verif.ClientText.Moves
import Verif.ClientText.Literal
import Verif.ClientText.Props
import Verif.ClientText.Validates
import Verif.ClientText.AnswerSpec
import Verif.ClientText.Executes
import Verif.ClientText.Claims
import Verif.Gen.Loaded
import Verif.Gen.LoadedSpec
import Verif.Gen.LoadedProps
import Verif.Gen.LoadedClaims
import Verif.Gen.LoadedExamples
import Verif.Life.Model
import Verif.Life.Logic
import Verif.Life.Triples
import Verif.Life.Functions
import Verif.Life.Claims
import Verif.Life.Examples
import Verif.Cpp.Spec
import Verif.Cpp.Unique
import Verif.Cpp.Lex
import Verif.GenText.Model
import Verif.GenText.Calls
import Verif.GenText.Tree
import Verif.GenText.Spec
import Verif.GenText.Read
import Verif.GenText.ReadAll
import Verif.GenText.Runs
import Verif.GenText.RunAll
import Verif.GenText.Separate
import Verif.GenText.Claims
import Verif.GenText.Examples
import Verif.Respell.Spec
import Verif.Respell.Moves
import Verif.Respell.Documents
import Verif.Respell.Unique
import Verif.Respell.Claims
import Verif.Respell.Examples
import Verif.Cpp.CodeSpec
import Verif.Cpp.CodeUnique
import Verif.GenCode.Model
import Verif.GenCode.Run
import Verif.GenCode.Spec
import Verif.GenCode.Tree
import Verif.GenCode.Read
import Verif.GenCode.ReadAll
import Verif.GenCode.Runs
import Verif.GenCode.RunAll
import Verif.GenCode.Claims
import Verif.GenCode.Examples
import Verif.Cpp.ObjectSpec
import Verif.Cpp.ObjectUnique
import Verif.GenObject.Model
import Verif.GenObject.Run
import Verif.GenObject.Spec
import Verif.GenObject.Tree
import Verif.GenObject.Read
import Verif.GenObject.ReadAll
import Verif.GenObject.Runs
import Verif.GenObject.Claims
import Verif.GenObject.Examples
import Verif.Cpp.TypeSpec
import Verif.Cpp.TypeUnique
import Verif.GenTypes.Model
import Verif.GenTypes.Run
import Verif.GenTypes.Spec
import Verif.GenTypes.Read
import Verif.GenTypes.Claims
import Verif.GenTypes.Examples
import Verif.Cpp.ClassSpec
import Verif.Cpp.ClassUnique
import Verif.GenClass.Model
import Verif.GenClass.Run
import Verif.GenClass.Spec
import Verif.GenClass.Read
import Verif.GenClass.Mean
import Verif.GenClass.Claims
import Verif.GenClass.Examples
import Verif.Cpp.StubSpec
import Verif.Cpp.StubUnique
import Verif.GenStub.Model
import Verif.GenStub.Run
import Verif.GenStub.Spec
import Verif.GenStub.Read
import Verif.GenStub.Claims
import Verif.GenStub.Examples
import Verif.Cpp.HiddenSpec
import Verif.Cpp.HiddenUnique
import Verif.GenHidden.Model
import Verif.GenHidden.Run
import Verif.GenHidden.Read
import Verif.GenHidden.Claims
import Verif.GenHidden.Examples
import Verif.GenService.Spec
import Verif.GenService.Claims
import Verif.GenService.Examples
