import Verif.Errors.Model

/-!
# C11 (the path builder), C12, C39: errors and responses

The theorems about the paths which execution reports are in `Verif.Exec`.
-/
namespace Verif.Errors
open Verif.Value Verif.Resp

/-! ## Specification -/

/-- Walking down from the root: each step adds one segment below the path so far. -/
def descend (segments : List Seg) : Option FieldPath :=
  segments.foldl (fun p s => some (FieldPath.extend p s)) none

/-- The number `n` as `Int` value. -/
def num (n : Nat) : Resp := .int n

/-- A segment in a response: a string for a name, an integer for an index. -/
def segSpec : Seg → Resp
  | .name s => .string s false
  | .index i => num i

/-- The documented shape of an error object. -/
def errorSpec (e : SchemaError) : Resp :=
  .map ([(str "message", .string e.message false)]
    ++ (if 0 < e.location.line then
          [(str "locations", .list [.map [(str "line", num e.location.line), (str "column", num e.location.column)]])]
        else [])
    ++ (if e.path ≠ [] then [(str "path", .list (e.path.map segSpec))] else []))

/-- Numbers which fit `int`. -/
def SmallSeg : Seg → Prop
  | .name _ => True
  | .index i => i < 2 ^ 31

def Small (e : SchemaError) : Prop :=
  e.location.line < 2 ^ 31 ∧ e.location.column < 2 ^ 31 ∧ ∀ s ∈ e.path, SmallSeg s

/-- What the client should get for an error. -/
def clientSpec (e : SchemaError) : ClientError where
  message := e.message
  locations := if 0 < e.location.line then [⟨e.location.line, e.location.column⟩] else []
  path := e.path.map fun
    | .name s => .name s
    | .index i => .index i

/-! ## C11 -/

theorem collectSegments_acc (p : FieldPath) (acc : List Seg) :
    collectSegments p acc = collectSegments p [] ++ acc := by
  induction p generalizing acc with
  | root s => rfl
  | child p s ih => rw [collectSegments, ih, collectSegments, ih [s]]; simp

theorem buildErrorPath_extend (p : Option FieldPath) (s : Seg) :
    buildErrorPath (some (FieldPath.extend p s)) = buildErrorPath p ++ [s] := by
  cases p with
  | none => rfl
  | some p => simp only [buildErrorPath, FieldPath.extend, collectSegments]; rw [collectSegments_acc]

theorem descend_build (acc segs : List Seg) (p : Option FieldPath) (h : buildErrorPath p = acc) :
    buildErrorPath (segs.foldl (fun p s => some (FieldPath.extend p s)) p) = acc ++ segs := by
  induction segs generalizing p acc with
  | nil => simpa using h
  | cons s segs ih =>
    rw [List.foldl_cons, ih (acc ++ [s]) _ (by rw [buildErrorPath_extend, h])]
    simp

/-- C11: the path reported for the field reached by going down through `segments` from the root is exactly
`segments`, root first. -/
theorem C11_path_root_to_leaf (segments : List Seg) : buildErrorPath (descend segments) = segments := by
  simpa [descend] using descend_build [] segments none rfl

example : buildErrorPath (descend [.name (str "a"), .index 3, .name (str "b")])
    = [.name (str "a"), .index 3, .name (str "b")] := rfl

/-- Different fields have different paths: the chain of parents is determined by the path. -/
theorem C11_path_injective (p q : FieldPath) (h : buildErrorPath (some p) = buildErrorPath (some q)) : p = q := by
  induction p generalizing q with
  | root s =>
    cases q with
    | root t => simpa [buildErrorPath, collectSegments] using h
    | child q t =>
      rw [show FieldPath.root s = FieldPath.extend none s from rfl,
        show FieldPath.child q t = FieldPath.extend (some q) t from rfl, buildErrorPath_extend,
        buildErrorPath_extend] at h
      have := (List.append_inj' h rfl).1
      exfalso
      cases q with
      | root u => simp [buildErrorPath, collectSegments] at this
      | child q u =>
        rw [show FieldPath.child q u = FieldPath.extend (some q) u from rfl, buildErrorPath_extend] at this
        simp [buildErrorPath] at this
  | child p s ih =>
    cases q with
    | root t =>
      rw [show FieldPath.root t = FieldPath.extend none t from rfl,
        show FieldPath.child p s = FieldPath.extend (some p) s from rfl, buildErrorPath_extend,
        buildErrorPath_extend] at h
      have := (List.append_inj' h rfl).1
      exfalso
      cases p with
      | root u => simp [buildErrorPath, collectSegments] at this
      | child p u =>
        rw [show FieldPath.child p u = FieldPath.extend (some p) u from rfl, buildErrorPath_extend] at this
        simp [buildErrorPath] at this
    | child q t =>
      rw [show FieldPath.child q t = FieldPath.extend (some q) t from rfl,
        show FieldPath.child p s = FieldPath.extend (some p) s from rfl, buildErrorPath_extend,
        buildErrorPath_extend] at h
      obtain ⟨h1, h2⟩ := List.append_inj' h rfl
      rw [ih q h1]
      simpa using h2

/-! ## C12 -/

theorem toIntType_small {n : Nat} (h : n < 2 ^ 31) : toIntType n = n := by
  unfold toIntType
  rw [Int.bmod_eq_of_le] <;> omega

theorem segmentValue_small {s : Seg} (h : SmallSeg s) : segmentValue s = segSpec s := by
  cases s with
  | name => rfl
  | index i => simp only [segmentValue, segSpec, num, toIntType_small h]

/-- C12: every error becomes an object of exactly the documented shape, one per error and in order. -/
theorem C12_error_shape (errors : List SchemaError) (h : ∀ e ∈ errors, Small e) :
    buildErrorValues errors = .list (errors.map errorSpec) := by
  unfold buildErrorValues
  congr 1
  apply List.map_congr_left
  intro e he
  obtain ⟨h1, h2, h3⟩ := h e he
  have hseg : e.path.map segmentValue = e.path.map segSpec :=
    List.map_congr_left fun s hs => segmentValue_small (h3 s hs)
  have d1 : (str "message" == str "locations") = false := by decide
  have d2 : (str "message" == str "path") = false := by decide
  have d3 : (str "locations" == str "path") = false := by decide
  have d4 : (str "line" == str "column") = false := by decide
  unfold addErrorPath addErrorLocation addErrorMessage errorSpec
  congr 1
  by_cases hl : e.location.line = 0
  · by_cases hp : e.path = []
    · simp [hl, hp, Members.emplace]
    · simp [hl, hp, Members.emplace, d2, hseg]
  · by_cases hp : e.path = []
    · simp [hl, hp, Members.emplace, d1, d4, toIntType_small h1, toIntType_small h2, num, Nat.pos_of_ne_zero hl]
    · simp [hl, hp, Members.emplace, d1, d2, d3, d4, toIntType_small h1, toIntType_small h2, num,
        Nat.pos_of_ne_zero hl, hseg]

theorem parse_segSpec (s : Seg) : parseServiceErrorPathSegment (segSpec s) =
    (match s with | .name s => .name s | .index i => .index i) := by
  cases s <;> rfl

/-- C12: the client reads back exactly the errors the service reported. -/
theorem C12_client_reads_errors (errors : List SchemaError) (h : ∀ e ∈ errors, Small e) (data : Resp) :
    (parseServiceResponse (.map [(str "data", data), (str "errors", buildErrorValues errors)])).errors
      = errors.map clientSpec := by
  have key : ∀ e : SchemaError, parseServiceError (errorSpec e) = clientSpec e := by
    intro e
    have d1 : ¬ str "locations" = str "message" := by decide
    have d2 : ¬ str "path" = str "message" := by decide
    have d3 : ¬ str "path" = str "locations" := by decide
    have d4 : ¬ str "column" = str "line" := by decide
    have hp : e.path.map (parseServiceErrorPathSegment ∘ segSpec) = e.path.map (fun
        | .name s => ClientSeg.name s
        | .index i => .index i) := List.map_congr_left fun s _ => parse_segSpec s
    have hloc : parseServiceErrorLocation (.map [(str "line", num e.location.line),
        (str "column", num e.location.column)]) = ⟨e.location.line, e.location.column⟩ := by
      simp [parseServiceErrorLocation, locationMember, num, d4]
    unfold errorSpec parseServiceError clientSpec
    by_cases hl : 0 < e.location.line
    · by_cases hpn : e.path = []
      · simp [hl, hpn, errorMember, d1, hloc]
      · simp [hl, hpn, errorMember, d1, d2, d3, hloc, hp]
    · by_cases hpn : e.path = []
      · simp [hl, hpn, errorMember]
      · simp [hl, hpn, errorMember, d2, d3, hp]
  have e1 : ¬ str "errors" = str "data" := by decide
  rw [C12_error_shape errors h]
  simp [parseServiceResponse, responseMember, e1, Function.comp_def, key]

example : Small { message := str "m", location := ⟨3, 4⟩, path := [.name (str "a"), .index 2] } := by
  simp [Small, SmallSeg]

/-- `what()` is the message of the first error. -/
theorem C12_what (messages : List Str) :
    what (convertMessages messages) = messages.headD (str "Unknown schema error") := by
  cases messages <;> rfl

/-! ## C39 -/

theorem foldl_responseMember (members : Members) (h : (members.map (·.1)).Nodup) (r : ServiceResponse) :
    (members.foldl responseMember r).data = (Members.find members (str "data")).getD r.data ∧
    (members.foldl responseMember r).errors = r.errors ++ (match Members.find members (str "errors") with
      | some (.list es) => es.map parseServiceError
      | _ => []) := by
  have e1 : ¬ str "errors" = str "data" := by decide
  induction members generalizing r with
  | nil => simp [Members.find]
  | cons m members ih =>
    obtain ⟨n, v⟩ := m
    simp only [List.map_cons, List.nodup_cons] at h
    have hfind : ∀ name, Members.find ((n, v) :: members) name =
        if n = name then some v else Members.find members name := by
      intro name
      by_cases hn : n = name
      · simp [Members.find, List.find?, hn]
      · have : (n == name) = false := by simpa using hn
        simp [Members.find, List.find?, hn, this]
    have hnone : ∀ name, n = name → Members.find members name = none := by
      rintro name rfl
      simp only [Members.find, Option.map_eq_none_iff, List.find?_eq_none]
      intro x hx hxn
      exact h.1 (List.mem_map.2 ⟨x, hx, by simpa using hxn⟩)
    obtain ⟨i1, i2⟩ := ih h.2 (responseMember r (n, v))
    rw [List.foldl_cons, i1, i2, hfind, hfind]
    by_cases hn : n = str "data"
    · have hne : ¬ n = str "errors" := fun h => e1 (h.symm.trans hn)
      rw [if_pos hn, if_neg hne, hnone _ hn]
      simp [responseMember, hn]
    · rw [if_neg hn]
      by_cases hn' : n = str "errors"
      · rw [if_pos hn', hnone _ hn']
        unfold responseMember
        simp only [hn', e1, if_false, if_true]
        cases v <;> simp
      · rw [if_neg hn']
        simp [responseMember, hn, hn']

/-- C39: for every response object (whose member names are distinct, as in every object value, C04) the client gets
exactly the `data` member, and the `errors` member read element by element, whatever the order of the members and
whatever other members there are. -/
theorem C39_split_response (members : Members) (h : (members.map (·.1)).Nodup) :
    (parseServiceResponse (.map members)).data = (Members.find members (str "data")).getD .null ∧
    (parseServiceResponse (.map members)).errors = (match Members.find members (str "errors") with
      | some (.list es) => es.map parseServiceError
      | _ => []) := by
  simpa [parseServiceResponse] using foldl_responseMember members h {}

/-- The order of the members does not matter. -/
theorem C39_order_irrelevant (m m' : Members) (h : (m.map (·.1)).Nodup) (hp : m.Perm m') :
    parseServiceResponse (.map m) = parseServiceResponse (.map m') := by
  have h' : (m'.map (·.1)).Nodup := (hp.map (·.1)).nodup_iff.1 h
  have hfind : ∀ name, Members.find m name = Members.find m' name := by
    intro name
    have key : ∀ (a : Members), (a.map (·.1)).Nodup → ∀ v, Members.find a name = some v ↔ (name, v) ∈ a := by
      intro a
      induction a with
      | nil => simp [Members.find]
      | cons x xs ih =>
        obtain ⟨n, w⟩ := x
        intro hnd v
        simp only [List.map_cons, List.nodup_cons] at hnd
        by_cases hn : n = name
        · subst hn
          simp only [Members.find, List.find?, beq_self_eq_true, Option.map_some, Option.some.injEq,
            List.mem_cons, Prod.mk.injEq, true_and]
          constructor
          · exact fun h => .inl h.symm
          · rintro (h | h)
            · exact h.symm
            · exact absurd (List.mem_map.2 ⟨_, h, rfl⟩) hnd.1
        · have hb : (n == name) = false := by simpa using hn
          have : Members.find ((n, w) :: xs) name = Members.find xs name := by
            simp [Members.find, List.find?, hb]
          rw [this, ih hnd.2]
          simp only [List.mem_cons, Prod.mk.injEq]
          constructor
          · exact .inr
          · rintro (⟨h1, _⟩ | h)
            · exact absurd h1.symm hn
            · exact h
    apply Option.ext
    intro v
    rw [key m h, key m' h', hp.mem_iff]
  obtain ⟨a1, a2⟩ := C39_split_response m h
  obtain ⟨b1, b2⟩ := C39_split_response m' h'
  rw [hfind] at a1 a2
  generalize parseServiceResponse (.map m) = x at *
  generalize parseServiceResponse (.map m') = y at *
  cases x; cases y
  simp_all

/-- Anything but an object is an empty response. -/
theorem C39_not_an_object (r : Resp) (h : r.type ≠ .map) : parseServiceResponse r = {} := by
  cases r <;> first | rfl | exact absurd rfl h

example : parseServiceResponse (.map [(str "extensions", .null), (str "errors", .list [.map [(str "message",
      .string (str "m") true)]]), (str "data", .int 1)])
    = { data := .int 1, errors := [{ message := str "m" }] } := by
  rfl

end Verif.Errors
