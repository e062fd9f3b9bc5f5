import Verif.Resp.Refine

/-!
# Equality of response values

`Resp.eq` is `Value::operator==` on what a program can see of values (GraphQLResponse.cpp:17-40, 484-487).
-/
namespace Verif.Resp
open Verif.Value

mutual
/-- `Value::operator==`, GraphQLResponse.cpp:484-487. -/
def Resp.eq : Resp → Resp → Bool
  | .map a, .map b => Resp.eqMembers a b
  | .list a, .list b => Resp.eqList a b
  | .string a j, .string b k => j == k && a == b
  | .null, .null => true
  | .boolean a, .boolean b => a == b
  | .int a, .int b => a == b
  | .float a, .float b => a.eq b
  | .enumValue a, .enumValue b => a == b
  | .scalar (some a), .scalar (some b) => Resp.eq a b
  | .scalar none, .scalar none => true
  | _, _ => false
/-- `std::vector<std::pair<std::string, Value>>::operator==` -/
def Resp.eqMembers : List (Str × Resp) → List (Str × Resp) → Bool
  | [], [] => true
  | (n, a) :: as, (m, b) :: bs => n == m && Resp.eq a b && Resp.eqMembers as bs
  | _, _ => false
/-- `std::vector<Value>::operator==` -/
def Resp.eqList : List Resp → List Resp → Bool
  | [], [] => true
  | a :: as, b :: bs => Resp.eq a b && Resp.eqList as bs
  | _, _ => false
end

mutual
/-- `Resp.eq` is the equality of the model of `response::Value`. -/
theorem eq_tree : (a b : Value) → Resp.eq (tree a) (tree b) = Value.eq a b
  | .map a _, .map b _ => by simp only [tree, Resp.eq, Value.eq]; exact eqMembers_tree a b
  | .list a, .list b => by simp only [tree, Resp.eq, Value.eq]; exact eqList_tree a b
  | .scalar (some a), .scalar (some b) => by simp only [tree, Resp.eq, Value.eq]; exact eq_tree a b
  | .scalar none, b => by cases b with | scalar v => cases v <;> simp [tree, Resp.eq, Value.eq] | _ => simp [tree, Resp.eq, Value.eq]
  | .scalar (some a), b => by
    cases b with
    | scalar v =>
      cases v with
      | none => simp [tree, Resp.eq, Value.eq]
      | some b => simp only [tree, Resp.eq, Value.eq]; exact eq_tree a b
    | _ => simp [tree, Resp.eq, Value.eq]
  | .string .., b | .null, b | .boolean _, b | .int _, b | .float _, b | .enumValue _, b => by
    cases b with | scalar v => cases v <;> simp [tree, Resp.eq, Value.eq] | _ => simp [tree, Resp.eq, Value.eq]
  | .map .., .list _ | .map .., .string .. | .map .., .null | .map .., .boolean _ | .map .., .int _ | .map .., .float _
  | .map .., .enumValue _ | .map .., .scalar none | .map .., .scalar (some _) => by simp [tree, Resp.eq, Value.eq]
  | .list .., .map .. | .list .., .string .. | .list .., .null | .list .., .boolean _ | .list .., .int _ | .list .., .float _
  | .list .., .enumValue _ | .list .., .scalar none | .list .., .scalar (some _) => by simp [tree, Resp.eq, Value.eq]
theorem eqMembers_tree : (a b : List (Str × Value)) → Resp.eqMembers (treeEntries a) (treeEntries b) = Value.eqEntries a b
  | [], [] => by simp [treeEntries, Resp.eqMembers, Value.eqEntries]
  | [], _ :: _ => by simp [treeEntries, Resp.eqMembers, Value.eqEntries]
  | _ :: _, [] => by simp [treeEntries, Resp.eqMembers, Value.eqEntries]
  | (n, a) :: as, (m, b) :: bs => by
    simp only [treeEntries, Resp.eqMembers, Value.eqEntries, eq_tree a b, eqMembers_tree as bs]
theorem eqList_tree : (a b : List Value) → Resp.eqList (treeList a) (treeList b) = Value.eqList a b
  | [], [] => by simp [treeList, Resp.eqList, Value.eqList]
  | [], _ :: _ => by simp [treeList, Resp.eqList, Value.eqList]
  | _ :: _, [] => by simp [treeList, Resp.eqList, Value.eqList]
  | a :: as, b :: bs => by simp only [treeList, Resp.eqList, Value.eqList, eq_tree a b, eqList_tree as bs]
end

end Verif.Resp
