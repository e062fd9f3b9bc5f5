import Verif.Cpp.CodeSpec
import Verif.Gen.Input

/-!
# What the code does

A specification: how C++ runs the code of `Verif.Cpp.CodeSpec`, with the parts of the library which it uses: the constructors
and members of `response::Value` (`/repo/src/GraphQLResponse.cpp:43-57`, 100-108, 313-353, 362-395, 593-619, 678-686),
`ModifiedArgument::require` and `find` (`/repo/include/graphqlservice/GraphQLService.h:322-424`).

Whatever is not said here is `stuck`: code which does not compile (a variable which is not declared, or declared twice), code
which reads a variable after `std::move`, and code which is not modelled. The arguments of a call are evaluated from left to right
(C++ leaves the order open; in the code here at most one of them has an effect).
-/
namespace Verif.GenCode
open Verif.Value Verif.Resp Verif.Errors Verif.Modifiers Verif.Gen.Service
open Verif.Cpp (Path path word)
open Verif.Gen.Client (Data)
open Verif.Cpp.Code (Expr Stmt Function)

/-- A result, an exception, a recursion which is deeper than the bound, or nothing that is known. -/
inductive Out (α : Type) where
  | ok (a : α)
  | throws (e : Exn)
  | depth
  | stuck

def Out.bind {α β : Type} (r : Out α) (f : α → Out β) : Out β :=
  match r with
  | .ok a => f a
  | .throws e => .throws e
  | .depth => .depth
  | .stuck => .stuck

def Out.map {α β : Type} (f : α → β) (r : Out α) : Out β := r.bind fun a => .ok (f a)

/-- A result or an exception. -/
def Out.of {α : Type} : Res α → Out α
  | .ok a => .ok a
  | .error e => .throws e
  | .depth => .depth

/-! ## Values and variables -/

/-- The value of a variable or an expression. -/
inductive Val where
  /-- a `response::Value` -/
  | value (v : Resp)
  /-- anything after `std::move` -/
  | moved
  /-- a string literal -/
  | text (s : Str)
  /-- a `std::string` -/
  | string (s : Str)
  | int (i : Int)
  | double (d : Double)
  | bool (b : Bool)
  /-- a `response::Type` -/
  | kind (t : Ty)
  /-- the parameters of a resolver, with `arguments` -/
  | params (arguments : Resp)
  /-- the result of `find`: `first` if `second` is true -/
  | pair (found : Option (Arg Data))
  /-- the result of `require` -/
  | arg (a : Arg Data)
  /-- `{ a, b }` -/
  | braces (vs : List Val)
  | void
  /-- a `std::unique_lock`, while or after it holds the mutex -/
  | lock (held : Bool)
  /-- the directives of a field -/
  | directives
  /-- the result of an accessor -/
  | result

/-- The variables of a function. -/
abbrev Scope := Str → Option Val

def Scope.empty : Scope := fun _ => none

def Scope.set (E : Scope) (x : Str) (v : Val) : Scope := fun y => if y = x then some v else E y

/-! ## Literals and types -/

/-- The number which is written with some digits. -/
def digitsValue (s : Str) : Nat := s.foldl (fun n c => 10 * n + (c.toNat - 48)) 0

/-- An integer literal which is decimal (it does not begin with `0`, unless it is `0`) and fits in 64 bits. -/
def integer (s : Str) : Option Nat :=
  if str (toString (digitsValue s)) = s ∧ digitsValue s < 2 ^ 63 then some (digitsValue s) else none

/-- Unary minus, of a `double`. -/
def Double.minus : Double → Double
  | .finite q => if q = 0 then .negZero else .finite (-q)
  | .negZero => .finite 0
  | .inf b => .inf !b
  | .nan => .nan

/-- The value of a number; `read`: the value of a floating literal. -/
def numberValue (read : Str → Double) (negative : Bool) (s : Str) : Option Val :=
  if s.all Text.isDigit then (integer s).map fun (n : Nat) => Val.int (if negative then -(n : Int) else n)
  else some (.double (if negative then Double.minus (read s) else read s))

/-- `static_cast<t>(v)`: to the 32-bit integers, or to `double` from integers which it can represent. -/
def castTo (t : Path) (v : Val) : Option Val :=
  if t = path "response" ["IntType"] then
    match v with
    | .int i => if -2 ^ 31 ≤ i ∧ i < 2 ^ 31 then some (.int i) else none
    | _ => none
  else if t = path "response" ["FloatType"] then
    match v with
    | .int i => if -2 ^ 53 ≤ i ∧ i ≤ 2 ^ 53 then some (.double (.finite i)) else none
    | .double d => some (.double d)
    | _ => none
  else none

/-- The values of `response::Type`. -/
def kinds : List (Path × Ty) :=
  [(path "response" ["Type", "Map"], .map), (path "response" ["Type", "List"], .list),
   (path "response" ["Type", "String"], .string), (path "response" ["Type", "Null"], .null),
   (path "response" ["Type", "Boolean"], .boolean), (path "response" ["Type", "Int"], .int),
   (path "response" ["Type", "Float"], .float), (path "response" ["Type", "EnumValue"], .enumValue),
   (path "response" ["Type", "Scalar"], .scalar)]

/-- `Value::Value(Type)`, GraphQLResponse.cpp:313-353 -/
def initial : Ty → Resp
  | .map => .map []
  | .list => .list []
  | .string => .string [] false
  | .null => .null
  | .boolean => .boolean false
  | .int => .int 0
  | .float => .float (.finite 0)
  | .enumValue => .enumValue []
  | .scalar => .scalar none

/-- The `std::string` of a `const char*`: up to the first zero. -/
def cString (s : Str) : Str := s.takeWhile (· != 0)

/-- `t(v)`, or `t x(v);` -/
def construct (t : Path) (v : Val) : Option Val :=
  if t = path "response" ["Value"] then
    match v with
    | .kind k => some (.value (initial k))
    | .string s => some (.value (.string s false))
    | .bool b => some (.value (.boolean b))
    | .int i => some (.value (.int i))
    | .double d => some (.value (.float d))
    | _ => none
  else if t = path "std" ["string"] then
    match v with
    | .text s => some (.string (cString s))
    | _ => none
  else none

/-- `v.m<t>(vs)` of a `response::Value`: its value after the call. -/
def update (v : Resp) (m : Str) (t : Option Path) (vs : List Val) : Option Resp :=
  if m = str "emplace_back" ∧ t = none then
    match v, vs with
    | .map members, [.text n, .value w] =>
      some (.map (if (cString n) ∈ members.map (·.1) then members else members ++ [(cString n, w)]))
    | .list elements, [.value w] => some (.list (elements ++ [w]))
    | _, _ => none
  else if m = str "set" ∧ t = some (path "response" ["StringType"]) then
    match v, vs with
    | .enumValue _, [.text s] => some (.enumValue (cString s))
    | .string _ j, [.text s] => some (.string (cString s) j)
    | _, _ => none
  else if m = str "set" ∧ t = some (path "response" ["ScalarType"]) then
    match v, vs with
    | .scalar _, [.value w] => some (.scalar (some w))
    | _, _ => none
  else none

/-! ## Arguments -/

/-- The template arguments of `require` and `find`. -/
def modifier (q : Path) : Option Mod :=
  if q = path "service" ["TypeModifier", "Nullable"] then some .nullable
  else if q = path "service" ["TypeModifier", "List"] then some .list
  else none

def outMap {α β : Type} (f : α → Out β) : List α → Out (List β)
  | [] => .ok []
  | x :: xs => (f x).bind fun y => (outMap f xs).bind fun ys => .ok (y :: ys)

/-- `ModifiedArgument<T>::require<Modifiers...>(name, arguments)`, GraphQLService.h:322-343, 359-409. -/
def requireOut (convert : Resp → Out Data) : (ms : List Mod) → (name : Str) → (arguments : Resp) → Out (Arg Data)
  | [], name, arguments =>
    match (Out.of (Res.of (at_ arguments name))).bind convert with
    | .ok a => .ok (.leaf a)
    | .throws e => .throws (prefixErrors name e)
    | .depth => .depth
    | .stuck => .stuck
  | .nullable :: ms, name, arguments =>
    (Out.of (Res.of (lookup arguments name))).bind fun
      | none => .ok .none
      | some .null => .ok .none
      | some _ => (requireOut convert ms name arguments).map .some
  | .list :: ms, name, arguments =>
    (Out.of (Res.of (at_ arguments name))).bind fun values => (Out.of (Res.of (elementsOf values))).bind fun elements =>
      (outMap (fun element => requireOut convert ms name (.map [(name, element)])) elements).map .list

/-- `ModifiedArgument<T>::f<ms...>(name, arguments)` for `require` and `find` (GraphQLService.h:345-357, 411-424). -/
def argumentCall (convert : Resp → Out Data) (f : Str) (ms : List Mod) (name : Str) (arguments : Resp) : Out Val :=
  if f = str "require" then (requireOut convert ms name arguments).map .arg
  else if f = str "find" then
    match requireOut convert ms name arguments with
    | .ok a => .ok (.pair (some a))
    | .throws _ => .ok (.pair none)
    | .depth => .depth
    | .stuck => .stuck
  else .stuck

/-! ## Expressions and statements -/

/-- The values of floating literals, and `ModifiedArgument<T>::convert`. -/
structure Library where
  read : Str → Double
  convert : Path → Resp → Out Data

def Out.ofOption {α : Type} : Option α → Out α
  | some a => .ok a
  | none => .stuck

mutual
def eval (L : Library) : Expr → Scope → Out (Val × Scope)
  | .name q, E =>
    if q.tail = [] then
      match E q.head with
      | some .moved => .stuck
      | some v => .ok (v, E)
      | none => .stuck
    else (Out.ofOption (kinds.lookup q)).map fun k => (.kind k, E)
  | .text s, E => .ok (.text s, E)
  | .number negative s, E => (Out.ofOption (numberValue L.read negative s)).map fun v => (v, E)
  | .boolean b, E => .ok (.bool b, E)
  | .member x m, E =>
    match E x with
    | some (.pair found) => if m = str "second" then .ok (.bool found.isSome, E) else .stuck
    | some (.params arguments) => if m = str "arguments" then .ok (.value arguments, E) else .stuck
    | _ => .stuck
  | .call f args, E =>
    if f = path "std" ["move"] then
      match args with
      | [.name q] =>
        if q.tail = [] then
          match E q.head with
          | some (.value v) => .ok (.value v, E.set q.head .moved)
          | some (.arg a) => .ok (.arg a, E.set q.head .moved)
          | _ => .stuck
        else .stuck
      | [.member x m] =>
        match E x with
        | some (.pair (some a)) => if m = str "first" then .ok (.arg a, E.set x .moved) else .stuck
        | _ => .stuck
      | _ => .stuck
    else (evalList L args E).bind fun r =>
      match r.1 with
      | [v] => (Out.ofOption (construct f v)).map fun w => (w, r.2)
      | _ => .stuck
  | .template c t f ms args, E =>
    if c = path "service" ["ModifiedArgument"] then
      (evalList L args E).bind fun r =>
        match r.1, ms.mapM modifier with
        | [.text name, .value arguments], some ms => (argumentCall (L.convert t) f ms name arguments).map fun v => (v, r.2)
        | _, _ => .stuck
    else .stuck
  | .method x m t args, E =>
    (evalList L args E).bind fun r =>
      match r.2 x with
      | some (.value v) => (Out.ofOption (update v m t r.1)).map fun w => (.void, r.2.set x (.value w))
      | _ => .stuck
  | .staticCast t e, E => (eval L e E).bind fun r => (Out.ofOption (castTo t r.1)).map fun v => (v, r.2)
  | .cond c a b, E =>
    (eval L c E).bind fun r =>
      match r.1 with
      | .bool true => eval L a r.2
      | .bool false => eval L b r.2
      | _ => .stuck
  | .invoke body, E =>
    (execs L body Scope.empty).bind fun r =>
      match r.1 with
      | some v => .ok (v, E)
      | none => .stuck
  | .braces es, E => (evalList L es E).map fun r => (.braces r.1, r.2)
  | .init _ _, _ => .stuck
termination_by structural x => x
def evalList (L : Library) : List Expr → Scope → Out (List Val × Scope)
  | [], E => .ok ([], E)
  | e :: es, E => (eval L e E).bind fun r => (evalList L es r.2).map fun rs => (r.1 :: rs.1, rs.2)
termination_by structural x => x
/-- The result, if the function returns, and the variables. -/
def exec (L : Library) : Stmt → Scope → Out (Option Val × Scope)
  | .var t x, E =>
    match E x with
    | none => if t = path "response" ["Value"] then .ok (none, E.set x (.value .null)) else .stuck
    | some _ => .stuck
  | .varWith t x e, E =>
    match E x with
    | none => (eval L e E).bind fun r => (Out.ofOption (construct t r.1)).map fun v => (none, r.2.set x v)
    | some _ => .stuck
  | .auto _ x e, E =>
    match E x with
    | none => (eval L e E).map fun r => (none, r.2.set x r.1)
    | some _ => .stuck
  | .assign x e, E =>
    (eval L e E).bind fun r =>
      match r.2 x with
      | none => .stuck
      | some _ =>
        match r.1 with
        | .value v => .ok (none, r.2.set x (.value v))
        | .braces [] => .ok (none, r.2.set x (.value .null))
        | _ => .stuck
  | .expr e, E => (eval L e E).map fun r => (none, r.2)
  | .ret e, E => (eval L e E).map fun r => (some r.1, r.2)
termination_by structural x => x
def execs (L : Library) : List Stmt → Scope → Out (Option Val × Scope)
  | [], E => .ok (none, E)
  | s :: ss, E =>
    (exec L s E).bind fun r =>
      match r.1 with
      | some v => .ok (some v, r.2)
      | none => execs L ss r.2
termination_by structural x => x
end

/-! ## Conversions -/

/-- `{ a, b }` as the members of a structure. -/
def structure? (names : List Str) (v : Val) : Option Data :=
  match v with
  | .braces vs =>
    (vs.mapM fun (v : Val) =>
      match v with
      | .arg a => some a
      | _ => none).bind fun as =>
    if as.length = names.length then some (.object (names.zip as)) else none
  | _ => none

/-- `ModifiedArgument<T>::convert`: `known` for the types which have one already, or the specialisations `fs`. `members` are the
members of the structures. `depth` bounds the nesting of calls of specialisations. -/
def convertWith (read : Str → Double) (known : Path → Option (Resp → Res Data)) (members : Path → List Str)
    (fs : List Function) : (depth : Nat) → Path → Resp → Out Data
  | depth, t, v =>
    match known t with
    | some c => .of (c v)
    | none =>
      match fs.find? (fun f => f.c = word (str "ModifiedArgument") ∧ f.t = t ∧ f.f = str "convert") with
      | none => .stuck
      | some f =>
        match depth with
        | 0 => .depth
        | depth + 1 =>
          (execs ⟨read, convertWith read known members fs depth⟩ f.body (Scope.empty.set f.x (.value v))).bind fun r =>
            Out.ofOption (r.1.bind (structure? (members t)))

end Verif.GenCode
