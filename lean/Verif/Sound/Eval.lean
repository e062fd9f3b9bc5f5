import Verif.Sound.Spec
import Verif.Exec.ValueProps
import Verif.Request.Props
import Verif.Validation.Props

/-!
# Evaluating the arguments and directives of valid documents
-/
namespace Verif.Sound
open Verif.Value Verif.Resp Verif.Errors Verif.Ast Verif.Exec
open Verif.Validation (Schema FieldDef InputValue baseName findArgument findValue VariableTypes Location)
open Verif.Validation.Spec

variable {S : Schema}

/-! ## Literals whose variables are there -/

mutual
theorem evalLit_exists {env : Env} : (l : Lit) → (∀ v, InLit l v → (env.variables.find v).isSome) → ∃ r, evalLit env l = .ok r
  | .variable pos name, h => by
    obtain ⟨v, hv⟩ := Option.isSome_iff_exists.mp (h name .variable)
    exact ⟨v, by simp [evalLit, visitVariable, hv]⟩
  | .int n, _ => ⟨_, rfl⟩
  | .float d, _ => ⟨_, rfl⟩
  | .string s, _ => ⟨_, rfl⟩
  | .boolean b, _ => ⟨_, rfl⟩
  | .null, _ => ⟨_, rfl⟩
  | .enumValue s, _ => ⟨_, rfl⟩
  | .list xs, h => by
    obtain ⟨r, hr⟩ := evalList_exists xs (fun x hx v hv => h v (.list hx hv)) []
    exact ⟨_, by rw [evalLit, hr]⟩
  | .object fields, h => by
    obtain ⟨r, hr⟩ := evalArgs_exists fields (fun x hx v hv => h v (.object hx hv)) []
    exact ⟨_, by rw [evalLit, hr]⟩
theorem evalList_exists {env : Env} : (xs : List Lit) → (∀ x ∈ xs, ∀ v, InLit x v → (env.variables.find v).isSome) →
    (acc : List Resp) → ∃ r, evalList env xs acc = .ok r
  | [], _, acc => ⟨acc, rfl⟩
  | x :: xs, h, acc => by
    obtain ⟨v, hv⟩ := evalLit_exists x (h x List.mem_cons_self)
    obtain ⟨r, hr⟩ := evalList_exists xs (fun x hx => h x (List.mem_cons_of_mem _ hx)) (acc ++ [v])
    exact ⟨r, by simp only [evalList, hv, hr]⟩
theorem evalArgs_exists {env : Env} : (xs : List (Str × Lit)) → (∀ x ∈ xs, ∀ v, InLit x.2 v → (env.variables.find v).isSome) →
    (acc : Members) → ∃ r, evalArgs env xs acc = .ok r
  | [], _, acc => ⟨acc, rfl⟩
  | (n, x) :: xs, h, acc => by
    obtain ⟨v, hv⟩ := evalLit_exists x (h (n, x) List.mem_cons_self)
    obtain ⟨r, hr⟩ := evalArgs_exists xs (fun x hx => h x (List.mem_cons_of_mem _ hx)) (acc.emplace n v)
    exact ⟨r, by simp only [evalArgs, hv, hr]⟩
end

theorem evalOptArgs_exists {env : Env} {args : Option Args} (h : ∀ v, InArguments args v → (env.variables.find v).isSome) :
    ∃ ms, evalOptArgs env args = .ok ms := by
  cases args with
  | none => exact ⟨[], rfl⟩
  | some args => exact evalArgs_exists args (fun x hx v hv => h v ⟨x, hx, hv⟩) []

/-- The first directive of a name, in a list of directives. -/
theorem visitDirectives_exists {env : Env} (ds : List Directive) :
    (∀ d ∈ ds, ∀ v, InArguments d.arguments v → (env.variables.find v).isSome) → ∀ acc : Members,
    ∃ ms, visitDirectives env ds acc = .ok ms ∧ ∀ name w, ms.find name = some w → acc.find name = some w ∨
      ∃ d ∈ ds, d.name = name ∧ ∃ args, evalOptArgs env d.arguments = .ok args ∧ w = .map args := by
  induction ds with
  | nil => exact fun _ acc => ⟨acc, rfl, fun _ _ h => .inl h⟩
  | cons d ds ih =>
    intro h acc
    have h' : ∀ d ∈ ds, ∀ v, InArguments d.arguments v → (env.variables.find v).isSome :=
      fun d hd => h d (List.mem_cons_of_mem _ hd)
    rw [visitDirectives]
    by_cases he : d.name.isEmpty = true
    · rw [if_pos he]
      obtain ⟨ms, h1, h2⟩ := ih h' acc
      refine ⟨ms, h1, fun name w hw => (h2 name w hw).imp id ?_⟩
      rintro ⟨d', hd', r⟩
      exact ⟨d', List.mem_cons_of_mem _ hd', r⟩
    · rw [if_neg he]
      obtain ⟨args, ha⟩ := evalOptArgs_exists (h d List.mem_cons_self)
      obtain ⟨ms, h1, h2⟩ := ih h' (acc.emplace d.name (.map args))
      refine ⟨ms, by simp only [ha, h1], fun name w hw => ?_⟩
      rcases h2 name w hw with hw | ⟨d', hd', r⟩
      · rw [Request.Members.find_emplace] at hw
        split at hw
        · exact .inl hw
        · split at hw
          · rename_i hn
            cases hw
            exact .inr ⟨d, List.mem_cons_self, hn, args, ha, rfl⟩
          · cases hw
      · exact .inr ⟨d', List.mem_cons_of_mem _ hd', r⟩

theorem evalDirectives_exists {env : Env} {ds : Option (List Directive)}
    (h : ∀ v, InDirectives ds v → (env.variables.find v).isSome) :
    ∃ ms, evalDirectives env ds = .ok ms ∧ ∀ name w, ms.find name = some w →
      ∃ d ∈ ds.getD [], d.name = name ∧ ∃ args, evalOptArgs env d.arguments = .ok args ∧ w = .map args := by
  cases ds with
  | none => exact ⟨[], rfl, nofun⟩
  | some ds =>
    obtain ⟨ms, h1, h2⟩ := visitDirectives_exists ds (fun d hd v hv => h v ⟨d, hd, hv⟩) []
    refine ⟨ms, h1, fun name w hw => (h2 name w hw).resolve_left ?_⟩
    nofun

/-! ## Conditions -/

theorem inhabits_boolean (hb : S.kind (str "Boolean") = some .scalar) {v : Resp}
    (h : Inhabits S false v (.nonNull (.named (str "Boolean")))) : ∃ b, v = .boolean b := by
  have hscalar : ∀ t, S.find (str "Boolean") = some t → t.kind = .scalar := by
    intro t ht
    simpa [Schema.kind, ht] using hb
  cases h with
  | null h => exact absurd (h ⟨_, rfl⟩) (by simp)
  | scalar hn ht hd hk h => simp only [nullable] at ht; cases ht; exact h.2.2.2.2 rfl
  | enum ht hd hk h => simp only [nullable] at ht; cases ht; rw [hscalar _ hd] at hk; cases hk
  | jsonEnum ht hd hk h => simp only [nullable] at ht; cases ht; rw [hscalar _ hd] at hk; cases hk
  | list ht h => simp only [nullable] at ht; cases ht
  | object ht hd hk _ _ _ => simp only [nullable] at ht; cases ht; rw [hscalar _ hd] at hk; cases hk

/-- The arguments of `@skip` and `@include` are one Boolean. -/
theorem condition_argument (hS : Standard S) {vs : VariableTypes} {env : Env} (henv : VariablesInhabit S vs env.variables)
    {args : Args} (h : ArgumentsOk S (some vs) [⟨str "if", .nonNull (.named (str "Boolean")), []⟩] args) {ms : Members}
    (hms : evalArgs env args [] = .ok ms) : ∃ b, ms = [(str "if", .boolean b)] := by
  have hfind : ∀ n a, findArgument [⟨str "if", .nonNull (.named (str "Boolean")), []⟩] n = some a →
      n = str "if" ∧ a = ⟨false, false, .nonNull (.named (str "Boolean"))⟩ := by
    intro n a ha
    simp only [findArgument, List.reverse_singleton, List.find?_cons, List.find?_nil] at ha
    split at ha
    · rename_i hn
      simp only [Option.map_some, Option.some.injEq] at ha
      exact ⟨by simpa using (beq_iff_eq.mp hn).symm, ha.symm⟩
    · simp at ha
  obtain ⟨h1, h2⟩ := Validation.C29_accepted_arguments_inhabit henv h hms
  have hnames : (ms.map (·.1)).Nodup := by
    obtain ⟨new, hnew, hf⟩ := evalArgs_ok _ _ _ hms h.unique (by simp)
    simp only [List.nil_append] at hnew
    subst hnew
    have : ms.map (·.1) = args.map (·.1) := by
      clear h hms h1 h2
      induction hf with
      | nil => rfl
      | cons h _ ih => simp [h.1, ih]
    rw [this]
    exact h.unique
  have hmem := h2 (str "if") ⟨false, false, .nonNull (.named (str "Boolean"))⟩ rfl ⟨_, rfl⟩ rfl
  have hall : ∀ m ∈ ms, m.1 = str "if" ∧ ∃ b, m.2 = .boolean b := by
    intro m hm
    obtain ⟨a, ha, hi⟩ := h1 m hm
    obtain ⟨hn, rfl⟩ := hfind _ _ ha
    exact ⟨hn, inhabits_boolean hS.boolean hi⟩
  match ms, hnames, hmem, hall with
  | [], _, hmem, _ => simp at hmem
  | [m], _, _, hall =>
    obtain ⟨hn, b, hb⟩ := hall m List.mem_cons_self
    exact ⟨b, by rw [← hn, ← hb]⟩
  | m :: m' :: rest, hnames, _, hall =>
    have e1 := (hall m List.mem_cons_self).1
    have e2 := (hall m' (List.mem_cons_of_mem _ List.mem_cons_self)).1
    simp [e1, e2] at hnames

/-- The directives of a valid document decide whether a selection is skipped. -/
theorem skips_exists (hS : Standard S) {vs : VariableTypes} {env : Env} (henv : VariablesInhabit S vs env.variables)
    {location : Location} {ds : Option (List Directive)} (hds : DirectivesOk S (some vs) location ds)
    (hc : Conditional ds) (hv : ∀ v, InDirectives ds v → (env.variables.find v).isSome) :
    ∃ b, skips env ds = .ok b := by
  obtain ⟨ms, h1, h2⟩ := evalDirectives_exists hv
  have hcond : ∀ name, (name = str "skip" ∨ name = str "include") → condOf ms name ≠ .malformed := by
    intro name hname
    unfold condOf
    cases hf : ms.find name with
    | none => simp
    | some w =>
      obtain ⟨d, hd, hn, args, hargs, rfl⟩ := h2 name w hf
      obtain ⟨def_, hdef, _, hok⟩ := hds.defined d hd
      have hne := hc d hd (by rw [hn]; exact hname)
      obtain ⟨as, has⟩ := Option.ne_none_iff_exists'.mp hne
      have hok := hok as has
      rw [hS.conditions name def_ hname (by rw [← hn]; exact hdef)] at hok
      rw [has] at hargs
      obtain ⟨b, rfl⟩ := condition_argument hS henv hok hargs
      simp [condOfArgs]
  unfold skips
  rw [h1]
  simp only
  have hd := C15_decision ms
  have hs := hcond (str "skip") (.inl rfl)
  have hi := hcond (str "include") (.inr rfl)
  cases h1 : condOf ms (str "skip") with
  | malformed => exact absurd h1 hs
  | is b => rw [h1] at hd; exact ⟨_, hd⟩
  | absent =>
    rw [h1] at hd
    cases h2 : condOf ms (str "include") with
    | malformed => exact absurd h2 hi
    | is b => rw [h2] at hd; exact ⟨_, hd⟩
    | absent => rw [h2] at hd; exact ⟨_, hd⟩

/-! ## The arguments of a field which is selected again -/

theorem findValue_iff {fields : List (Str × Lit)} (h : (fields.map (·.1)).Nodup) {name : Str} {l : Lit} :
    findValue fields name = some l ↔ (name, l) ∈ fields := by
  induction fields with
  | nil => simp [findValue]
  | cons e fields ih =>
    obtain ⟨n, x⟩ := e
    simp only [List.map_cons, List.nodup_cons] at h
    unfold findValue at ih ⊢
    by_cases hn : n = name
    · subst hn
      simp only [List.find?_cons, beq_self_eq_true, Option.map_some, Option.some.injEq, List.mem_cons, Prod.mk.injEq, true_and]
      constructor
      · rintro rfl; exact .inl rfl
      · rintro (rfl | hm)
        · rfl
        · exact absurd (List.mem_map.mpr ⟨_, hm, rfl⟩) h.1
    · have hnb : (n == name) = false := by simpa using hn
      simp only [List.find?_cons, hnb, List.mem_cons, Prod.mk.injEq]
      rw [ih h.2]
      simp [Ne.symm hn]

/-- Two lists of members of the same length with distinct names, where each of the first has a counterpart. -/
theorem counterpart {R : Lit → Lit → Prop} {as bs : List (Str × Lit)} (ha : (as.map (·.1)).Nodup) (hb : (bs.map (·.1)).Nodup)
    (hl : as.length = bs.length) (h : ∀ e ∈ as, ∃ b, findValue bs e.1 = some b ∧ R e.2 b) :
    ∀ e ∈ bs, ∃ a, (e.1, a) ∈ as ∧ R a e.2 := by
  have hsub : as.map (·.1) ⊆ bs.map (·.1) := by
    intro n hn
    obtain ⟨e, he, rfl⟩ := List.mem_map.mp hn
    obtain ⟨b, hb', _⟩ := h e he
    exact List.mem_map.mpr ⟨_, (findValue_iff hb).mp hb', rfl⟩
  have hsub' : bs.map (·.1) ⊆ as.map (·.1) := by
    have := (List.subperm_of_subset ha hsub).perm_of_length_le (by simp [hl])
    exact this.symm.subset
  intro e he
  obtain ⟨e', he', hn⟩ := List.mem_map.mp (hsub' (List.mem_map.mpr ⟨e, he, rfl⟩))
  obtain ⟨b, hb', hr⟩ := h e' he'
  rw [hn] at hb'
  have : b = e.2 := by
    have h1 := (findValue_iff hb (name := e.1) (l := e.2)).mpr he
    rw [hb'] at h1
    exact Option.some.inj h1
  subst this
  exact ⟨e'.2, by rw [← hn]; exact he', hr⟩

theorem null_iff {overflow : Int → Int} {a b : Lit} (h : SameLiteral overflow a b) : a = .null ↔ b = .null := by
  cases h <;> simp

theorem fits_again {overflow : Int → Int} {a b : Lit} (h : SameLiteral overflow a b) :
    Unique a → Unique b → ∀ {vars : Option VariableTypes} {d : Bool} {t : TypeRef}, Fits S vars d a t → Fits S vars d b t := by
  induction h with
  | «variable» =>
    intro _ _ vars d t hf
    cases hf with
    | declared hv hd h => exact .declared hv hd h
    | any hv => exact .any hv
    | scalar hp _ _ _ _ => exact absurd rfl (hp.1 _ _)
  | @int a b h =>
    intro _ _ vars d t hf
    cases hf with
    | scalar hp ht hd hk h =>
      refine .scalar ⟨nofun, nofun⟩ ht hd hk ⟨fun _ => ⟨_, rfl⟩, fun _ => .inr ⟨_, rfl⟩, fun hn => ?_, fun hn => ?_, fun hn => ?_⟩
      · obtain ⟨_, h⟩ := h.2.2.1 hn; cases h
      · obtain ⟨_, _, h, _⟩ := h.2.2.2.1 hn; cases h
      · obtain ⟨_, h⟩ := h.2.2.2.2 hn; cases h
  | float h =>
    intro _ _ vars d t hf
    cases hf with
    | scalar hp ht hd hk h =>
      refine .scalar ⟨nofun, nofun⟩ ht hd hk ⟨fun hn => ?_, fun _ => .inl ⟨_, rfl⟩, fun hn => ?_, fun hn => ?_, fun hn => ?_⟩
      · obtain ⟨_, h⟩ := h.1 hn; cases h
      · obtain ⟨_, h⟩ := h.2.2.1 hn; cases h
      · obtain ⟨_, _, h, _⟩ := h.2.2.2.1 hn; cases h
      · obtain ⟨_, h⟩ := h.2.2.2.2 hn; cases h
  | string => exact fun _ _ => id
  | boolean => exact fun _ _ => id
  | null => exact fun _ _ => id
  | enumValue => exact fun _ _ => id
  | @list as bs hl h ih =>
    intro ha hb vars d t hf
    cases ha with
    | list ha =>
    cases hb with
    | list hb =>
    cases hf with
    | scalar hp ht hd hk h =>
      refine .scalar ⟨nofun, nofun⟩ ht hd hk ⟨fun hn => ?_, fun hn => ?_, fun hn => ?_, fun hn => ?_, fun hn => ?_⟩
      · obtain ⟨_, h⟩ := h.1 hn; cases h
      · rcases h.2.1 hn with ⟨_, h⟩ | ⟨_, h⟩ <;> cases h
      · obtain ⟨_, h⟩ := h.2.2.1 hn; cases h
      · obtain ⟨_, _, h, _⟩ := h.2.2.2.1 hn; cases h
      · obtain ⟨_, h⟩ := h.2.2.2.2 hn; cases h
    | list ht h =>
      refine .list ht fun x hx => ?_
      obtain ⟨i, hi, rfl⟩ := List.mem_iff_getElem.mp hx
      have hia : i < as.length := by rw [hl]; exact hi
      exact ih i as[i] bs[i] (List.getElem?_eq_getElem hia) (List.getElem?_eq_getElem hi)
        (ha _ (List.getElem_mem hia)) (hb _ hx) (h _ (List.getElem_mem hia))
  | @object as bs hl hs h ih =>
    intro ha hb vars d t hf
    cases ha with
    | object hna ha =>
    cases hb with
    | object hnb hb =>
    cases hf with
    | scalar hp ht hd hk h =>
      refine .scalar ⟨nofun, nofun⟩ ht hd hk ⟨fun hn => ?_, fun hn => ?_, fun hn => ?_, fun hn => ?_, fun hn => ?_⟩
      · obtain ⟨_, h⟩ := h.1 hn; cases h
      · rcases h.2.1 hn with ⟨_, h⟩ | ⟨_, h⟩ <;> cases h
      · obtain ⟨_, h⟩ := h.2.2.1 hn; cases h
      · obtain ⟨_, _, h, _⟩ := h.2.2.2.1 hn; cases h
      · obtain ⟨_, h⟩ := h.2.2.2.2 hn; cases h
    | object ht hd hk h1 h2 h3 =>
      have hall : ∀ e ∈ as, ∃ b, findValue bs e.1 = some b ∧ (SameLiteral overflow e.2 b ∧
          ∀ {vars : Option VariableTypes} {d : Bool} {t : TypeRef}, Fits S vars d e.2 t → Fits S vars d b t) := by
        intro e he
        obtain ⟨b, hb'⟩ := Option.isSome_iff_exists.mp (hs e he)
        exact ⟨b, hb', h e he b hb', ih e he b hb' (ha e he) (hb _ ((findValue_iff hnb).mp hb'))⟩
      have hc := counterpart (R := fun a b => SameLiteral overflow a b ∧
        ∀ {vars : Option VariableTypes} {d : Bool} {t : TypeRef}, Fits S vars d a t → Fits S vars d b t) hna hnb hl hall
      refine .object ht hd hk (fun e he => ?_) (fun e he field hf hne => ?_) (fun name field hf hr => ?_)
      · obtain ⟨a, hm, _⟩ := hc e he
        exact h1 (e.1, a) hm
      · obtain ⟨a, hm, hsame, hfits⟩ := hc e he
        exact hfits (h2 (e.1, a) hm field hf fun ⟨hn, hdv⟩ => hne ⟨(null_iff hsame).mp hn, hdv⟩)
      · refine (h3 name field hf hr).imp id fun hm => ?_
        obtain ⟨e, he, rfl⟩ := List.mem_map.mp hm
        obtain ⟨b, hb', _⟩ := hall e he
        exact List.mem_map.mpr ⟨_, (findValue_iff hnb).mp hb', rfl⟩

/-- The same arguments are right again. -/
theorem arguments_again {overflow : Int → Int} {as bs : Args} (h : SameArguments overflow as bs)
    {vars : Option VariableTypes} {defs : List InputValue} (ha : ArgumentsOk S vars defs as) (hn : (bs.map (·.1)).Nodup)
    (hu : ∀ e ∈ bs, Unique e.2) : ArgumentsOk S vars defs bs := by
  have hc := counterpart ha.unique hn h.1 h.2
  refine ⟨hn, hu, fun e he => ?_, fun e he a hf hne => ?_, fun name a hf hr hd => ?_⟩
  · obtain ⟨x, hm, _⟩ := hc e he
    exact ha.known (e.1, x) hm
  · obtain ⟨x, hm, hsame⟩ := hc e he
    exact fits_again hsame (ha.uniqueMembers (e.1, x) hm) (hu e he) (ha.values (e.1, x) hm a hf fun hx => hne ((null_iff hsame).mp hx))
  · obtain ⟨e, he, hname, hne⟩ := ha.required name a hf hr hd
    obtain ⟨b, hb, hsame⟩ := h.2 e he
    exact ⟨_, (findValue_iff hn).mp hb, hname, fun hx => hne ((null_iff hsame).mpr hx)⟩

end Verif.Sound
