import Verif.GenCode.Spec

/-!
# The syntax of the code

What the text of `Verif.GenCode.Model` is meant to be, as syntax; an instrument of the proofs.
-/
namespace Verif.GenCode
open Verif.Value Verif.Resp Verif.Modifiers
open Verif.Gen (InputField InputType)
open Verif.GenText (cpp)
open Verif.Cpp (Path path word)
open Verif.Cpp.Code (Expr Stmt Function)

def var (s : String) : Expr := .name (word (str s))

/-- `std::move(x)` -/
def moveE (x : Str) : Expr := .call (path "std" ["move"]) [.name (word x)]

/-- A variable with the value of a new container, and `entry`. -/
def containerS (x : String) (kind : String) : List Stmt :=
  [.varWith valueT (str x) (.name (path "response" ["Type", kind])), .var valueT (str "entry")]

/-- `-5`, as the minus and the digits -/
def intE (i : Int) : Expr := .number (decide (i < 0)) (str (toString i.natAbs))

mutual
def defaultS (number : Double → Expr) : Resp → List Stmt
  | .map members =>
    [.assign (str "entry") (.invoke (containerS "members" "Map" ++ (membersS number members ++ [.ret (var "members")])))]
  | .list elements =>
    [.assign (str "entry") (.invoke (containerS "elements" "List" ++ (elementsS number elements ++ [.ret (var "elements")])))]
  | .string s _ => [.assign (str "entry") (.call valueT [.call (path "std" ["string"]) [.text s]])]
  | .null => [.assign (str "entry") (.braces [])]
  | .boolean b => [.assign (str "entry") (.call valueT [.boolean b])]
  | .int i => [.assign (str "entry") (.call valueT [.staticCast (path "response" ["IntType"]) (intE i)])]
  | .float d => [.assign (str "entry") (.call valueT [.staticCast (path "response" ["FloatType"]) (number d)])]
  | .enumValue s =>
    [.assign (str "entry") (.call valueT [.name (path "response" ["Type", "EnumValue"])]),
     .expr (.method (str "entry") (str "set") (some (path "response" ["StringType"])) [.text s])]
  | .scalar v =>
    [.assign (str "entry") (.invoke (containerS "scalar" "Scalar" ++ (scalarS number v ++
      [.expr (.method (str "scalar") (str "set") (some (path "response" ["ScalarType"])) [moveE (str "entry")]),
       .ret (var "scalar")])))]
termination_by structural v => v
def membersS (number : Double → Expr) : List (Str × Resp) → List Stmt
  | [] => []
  | m :: ms => memberS number m ++ membersS number ms
termination_by structural v => v
def memberS (number : Double → Expr) : Str × Resp → List Stmt
  | (n, v) => defaultS number v ++
      [.expr (.method (str "members") (str "emplace_back") none [.text n, moveE (str "entry")])]
termination_by structural v => v
def elementsS (number : Double → Expr) : List Resp → List Stmt
  | [] => []
  | v :: vs => defaultS number v ++
      ([.expr (.method (str "elements") (str "emplace_back") none [moveE (str "entry")])] ++ elementsS number vs)
termination_by structural v => v
def scalarS (number : Double → Expr) : Option Resp → List Stmt
  | some v => defaultS number v
  | none => []
termination_by structural v => v
end

def modPath : Mod → Path
  | .nullable => path "service" ["TypeModifier", "Nullable"]
  | .list => path "service" ["TypeModifier", "List"]

def accessE (ns : Path) (m : String) (arguments : Expr) (f : InputField) : Expr :=
  .template (path "service" ["ModifiedArgument"]) (accessPath ns f) (str m) (f.modifiers.map modPath) [.text f.name, arguments]

def pairVar (f : InputField) : Str := str "pair" ++ capital f

def declarationS (ns : Path) (pre : Str) (arguments defaults : Expr) (f : InputField) : List Stmt :=
  if f.defaultValue.type = .null then [.auto false (pre ++ capital f) (accessE ns "require" arguments f)]
  else
    [.auto false (pairVar f) (accessE ns "find" arguments f),
     .auto false (pre ++ capital f) (.cond (.member (pairVar f) (str "second"))
       (.call (path "std" ["move"]) [.member (pairVar f) (str "first")]) (accessE ns "require" defaults f))]

def defaultsS (number : Double → Expr) (x : Str) (fs : List InputField) : List Stmt :=
  if (withDefault fs).isEmpty then []
  else
    [.auto true x (.invoke (containerS "values" "Map" ++
      ((withDefault fs).flatMap (fun f => defaultS number f.defaultValue ++
        [.expr (.method (str "values") (str "emplace_back") none [.text f.name, moveE (str "entry")])]) ++
      [.ret (var "values")])))]

def inputF (number : Double → Expr) (ns : Path) (t : InputType) : Function where
  result := typePath ns t.type
  c := word (str "ModifiedArgument")
  t := typePath ns t.type
  f := str "convert"
  type := valueT
  x := str "value"
  body :=
    defaultsS number (str "defaultValue") t.fields ++
    (t.fields.flatMap (declarationS ns (str "value") (var "value") (var "defaultValue")) ++
    [.ret (.braces (t.fields.map fun f => moveE (str "value" ++ capital f)))])

def argumentsS (number : Double → Expr) (ns : Path) (fs : List InputField) : List Stmt :=
  defaultsS number (str "defaultArguments") fs ++
  fs.flatMap (declarationS ns (str "arg") (.member (str "params") (str "arguments")) (var "defaultArguments"))

end Verif.GenCode
