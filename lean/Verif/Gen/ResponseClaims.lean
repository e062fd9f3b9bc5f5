import Verif.Gen.ResponseProps
import Verif.Validation.Expansion
import Verif.Validation.Examples

/-!
# C56: the response type of a request in the client generator
-/
namespace Verif.Gen.Client
open Verif.Value Verif.Errors Verif.Ast Verif.Modifiers
open Verif.Validation (Schema baseName Acyclic)
open Verif.Validation.Spec

variable {S : Schema} {fragments : List FragmentDef}

/-! ## The recursion ends -/

theorem visit_depth (hac : Acyclic fragments) : ∀ (d : Nat) (type : Str) (sels : List Selection) (st : VisitState)
    (stack : List Str), stack.Nodup → stack ⊆ fragments.map (·.name) → fragments.length ≤ d + stack.length →
      (∀ g ∈ stack, ∃ f, fragments.find? (fun f => f.name == g) = some f ∧
        ∀ name, Reaches fragments sels name → Reaches fragments f.sub name) →
      visitSelections S fragments d type sels st ≠ .error .depth := by
  have hcons : ∀ {s : Selection} {rest : List Selection} {name : Str}, Reaches fragments rest name →
      Reaches fragments (s :: rest) name := by
    intro s rest name h
    cases h with
    | here hm => exact .here (List.mem_cons_of_mem _ hm)
    | node hm h => exact .node (List.mem_cons_of_mem _ hm) h
    | inline hm h => exact .inline (List.mem_cons_of_mem _ hm) h
    | spread hm hf h => exact .spread (List.mem_cons_of_mem _ hm) hf h
  have weaken : ∀ {stack : List Str} {sels sels' : List Selection},
      (∀ g ∈ stack, ∃ f, fragments.find? (fun f => f.name == g) = some f ∧
        ∀ name, Reaches fragments sels name → Reaches fragments f.sub name) →
      (∀ name, Reaches fragments sels' name → Reaches fragments sels name) →
      ∀ g ∈ stack, ∃ f, fragments.find? (fun f => f.name == g) = some f ∧
        ∀ name, Reaches fragments sels' name → Reaches fragments f.sub name := by
    intro stack sels sels' h h' g hg
    obtain ⟨f, hf, hr⟩ := h g hg
    exact ⟨f, hf, fun n hn => hr n (h' n hn)⟩
  intro d type sels st
  fun_induction visitSelections S fragments d type sels st with
  | case1 => intros; nofun
  | case2 d type f rest st hin ih => exact fun stack h1 h2 h3 h4 => ih stack h1 h2 h3 (weaken h4 fun _ => hcons)
  | case3 d type f rest st hin st' hr ih => exact fun stack h1 h2 h3 h4 => ih stack h1 h2 h3 (weaken h4 fun _ => hcons)
  | case4 d type f rest st hin st' base ms hr ih =>
    exact fun stack h1 h2 h3 h4 => ih stack h1 h2 h3 (weaken h4 fun _ => hcons)
  | case5 d type f pos sub rest st hin ih => exact fun stack h1 h2 h3 h4 => ih stack h1 h2 h3 (weaken h4 fun _ => hcons)
  | case6 d type f pos sub rest st hin st' hr ih =>
    exact fun stack h1 h2 h3 h4 => ih stack h1 h2 h3 (weaken h4 fun _ => hcons)
  | case7 d type f pos sub rest st hin base ms hr hc e he ih =>
    intro stack h1 h2 h3 h4 h
    exact ih stack h1 h2 h3 (weaken h4 fun _ => .node List.mem_cons_self) (by rw [he, ← h])
  | case8 d type f pos sub rest st hin st' base ms hr hc inner he ihs ih =>
    exact fun stack h1 h2 h3 h4 => ih stack h1 h2 h3 (weaken h4 fun _ => hcons)
  | case9 d type f pos sub rest st hin st' base ms hr hc ih =>
    exact fun stack h1 h2 h3 h4 => ih stack h1 h2 h3 (weaken h4 fun _ => hcons)
  | case10 => intros; nofun
  | case11 => intros; nofun
  | case12 type pos name ds rest st fragment hf hk =>
    intro stack h1 h2 h3 h4 _
    have hnot : name ∉ stack := by
      intro hin
      obtain ⟨f, hf1, hf2⟩ := h4 name hin
      exact hac name f hf1 (hf2 _ (.here List.mem_cons_self))
    have hlen := ((List.nodup_cons.mpr ⟨hnot, h1⟩).subperm (l₂ := fragments.map (·.name)) (by
      intro x hx
      rcases List.mem_cons.mp hx with rfl | hx
      · exact List.mem_map.mpr ⟨fragment, List.mem_of_find?_eq_some hf, by simpa using List.find?_some hf⟩
      · exact h2 hx)).length_le
    simp only [List.length_cons, List.length_map] at hlen
    omega
  | case13 type pos name ds rest st fragment hf hk d e he ih =>
    intro stack h1 h2 h3 h4 h
    have hnot : name ∉ stack := by
      intro hin
      obtain ⟨f, hf1, hf2⟩ := h4 name hin
      exact hac name f hf1 (hf2 _ (.here List.mem_cons_self))
    refine ih (name :: stack) (List.nodup_cons.mpr ⟨hnot, h1⟩) ?_ (by simp only [List.length_cons]; omega) ?_ (by rw [he, ← h])
    · intro x hx
      rcases List.mem_cons.mp hx with rfl | hx
      · exact List.mem_map.mpr ⟨fragment, List.mem_of_find?_eq_some hf, by simpa using List.find?_some hf⟩
      · exact h2 hx
    · intro g hg
      rcases List.mem_cons.mp hg with rfl | hg
      · exact ⟨fragment, hf, fun _ h => h⟩
      · exact weaken h4 (fun _ => .spread List.mem_cons_self hf) g hg
  | case14 type pos name ds rest st fragment hf hk d inner he ihs ih =>
    exact fun stack h1 h2 h3 h4 => ih stack h1 h2 h3 (weaken h4 fun _ => hcons)
  | case15 d type pos ds sub rest st e he ih =>
    intro stack h1 h2 h3 h4 h
    exact ih stack h1 h2 h3 (weaken h4 fun _ => .inline List.mem_cons_self) (by rw [he, ← h])
  | case16 d type pos ds sub rest st inner he ihs ih =>
    exact fun stack h1 h2 h3 h4 => ih stack h1 h2 h3 (weaken h4 fun _ => hcons)
  | case17 => intros; nofun
  | case18 d type pos condition ds sub rest st hk e he ih =>
    intro stack h1 h2 h3 h4 h
    exact ih stack h1 h2 h3 (weaken h4 fun _ => .inline List.mem_cons_self) (by rw [he, ← h])
  | case19 d type pos condition ds sub rest st hk inner he ihs ih =>
    exact fun stack h1 h2 h3 h4 => ih stack h1 h2 h3 (weaken h4 fun _ => hcons)

/-- Once the recursion ends, a greater bound changes nothing. -/
theorem visit_mono : ∀ (d : Nat) (type : Str) (sels : List Selection) (st : VisitState),
    visitSelections S fragments d type sels st ≠ .error .depth →
    visitSelections S fragments (d + 1) type sels st = visitSelections S fragments d type sels st := by
  intro d type sels st
  fun_induction visitSelections S fragments d type sels st with
  | case1 => intro; simp [visitSelections]
  | case2 d type f rest st hin ih => intro h; rw [visitSelections, if_pos hin, ih h]
  | case3 d type f rest st hin st' hr ih =>
    intro h
    simp only [visitSelections, if_neg hin, hr]
    exact ih h
  | case4 d type f rest st hin st' base ms hr ih =>
    intro h
    simp only [visitSelections, if_neg hin, hr]
    exact ih h
  | case5 d type f pos sub rest st hin ih => intro h; rw [visitSelections, if_pos hin, ih h]
  | case6 d type f pos sub rest st hin st' hr ih =>
    intro h
    simp only [visitSelections, if_neg hin, hr]
    exact ih h
  | case7 d type f pos sub rest st hin base ms hr hc e he ih =>
    intro h
    have := ih (by rw [he]; exact h)
    simp only [visitSelections, if_neg hin, hr, if_pos hc, this, he]
  | case8 d type f pos sub rest st hin st' base ms hr hc inner he ihs ih =>
    intro h
    have := ihs (by rw [he]; nofun)
    simp only [visitSelections, if_neg hin, hr, if_pos hc, this, he]
    exact ih h
  | case9 d type f pos sub rest st hin st' base ms hr hc ih =>
    intro h
    simp only [visitSelections, if_neg hin, hr, if_neg hc]
    exact ih h
  | case10 d type pos name ds rest st hf =>
    intro h
    unfold visitSelections
    simp only [hf]
  | case11 d type pos name ds rest st fragment hf hk =>
    intro h
    unfold visitSelections
    simp only [hf, if_pos hk]
  | case12 => exact fun h => absurd rfl h
  | case13 type pos name ds rest st fragment hf hk d e he ih =>
    intro h
    have := ih (by rw [he]; exact h)
    rw [visitSelections]
    simp only [hf, if_neg hk, this, he]
  | case14 type pos name ds rest st fragment hf hk d inner he ihs ih =>
    intro h
    have := ihs (by rw [he]; nofun)
    rw [visitSelections]
    simp only [hf, if_neg hk, this, he]
    exact ih h
  | case15 d type pos ds sub rest st e he ih =>
    intro h
    have := ih (by rw [he]; exact h)
    simp only [visitSelections, this, he]
  | case16 d type pos ds sub rest st inner he ihs ih =>
    intro h
    have := ihs (by rw [he]; nofun)
    simp only [visitSelections, this, he]
    exact ih h
  | case17 d type pos condition ds sub rest st hk => intro h; simp only [visitSelections, if_pos hk]
  | case18 d type pos condition ds sub rest st hk e he ih =>
    intro h
    have := ih (by rw [he]; exact h)
    simp only [visitSelections, if_neg hk, this, he]
  | case19 d type pos condition ds sub rest st hk inner he ihs ih =>
    intro h
    have := ihs (by rw [he]; nofun)
    simp only [visitSelections, if_neg hk, this, he]
    exact ih h

theorem visit_mono_le {d d' : Nat} (hd : d ≤ d') {type : Str} {sels : List Selection} {st : VisitState}
    (h : visitSelections S fragments d type sels st ≠ .error .depth) :
    visitSelections S fragments d' type sels st = visitSelections S fragments d type sels st := by
  induction hd with
  | refl => rfl
  | step _ ih => rw [visit_mono _ _ _ _ (by rw [ih]; exact h), ih]

/-! ## Exceptions -/

theorem composite_find {name : Str} (h : S.isComposite name = true) : (S.find name).isNone = false := by
  unfold Schema.isComposite Schema.kind at h
  cases hf : S.find name with
  | none => rw [hf] at h; cases h
  | some t => rfl

/-- For consistent selections which the validator has checked there is no exception. -/
theorem visit_noexcept (hS : Ready S) {overflow : Int → Int} {vars : Option Validation.VariableTypes} {stack : List Str}
    {type0 : Str} {sel0 : List Selection}
    (h0 : Validation.Spec.Entered S overflow fragments vars stack type0 sel0) (hc : Consistent S fragments type0 sel0)
    (hfragments : ∀ f ∈ fragments, S.isComposite f.typeCondition = true) :
    ∀ (d : Nat) (type : Str) (sels : List Selection) (st : VisitState) (type1 : Str) (sel1 sel2 : List Selection),
      Below S fragments type0 sel0 type1 sel1 → Part fragments type1 sel1 type sel2 → sels ⊆ sel2 →
      ¬ EmptyCondition fragments sel2 → ∀ e, visitSelections S fragments d type sels st ≠ .error (.exception e) := by
  have checked : ∀ {type1 type : Str} {sel1 sel2 : List Selection}, Below S fragments type0 sel0 type1 sel1 →
      Part fragments type1 sel1 type sel2 →
      ∃ stack' before after uses, Checked S overflow fragments vars stack' type sel2 before after uses := by
    intro type1 type sel1 sel2 hb hp
    obtain ⟨stack1, _, _, _, hch⟩ := entered_below h0 hb
    obtain ⟨stack2, _, _, _, _, hch2⟩ := hch.part hp
    exact ⟨_, _, _, _, hch2⟩
  have below : ∀ {type1 type : Str} {sel1 sel2 : List Selection} {f : Field} {pos : Loc} {sub : List Selection} {base : Str}
      {ms : List Mod}, Below S fragments type0 sel0 type1 sel1 → Part fragments type1 sel1 type sel2 →
      .node f pos sub ∈ sel2 → responseType S type f.name = some (base, ms) → Below S fragments type0 sel0 base sub := by
    intro type1 type sel1 sel2 f pos sub base ms hb hp hm hr
    have hs : Selects fragments type1 sel1 type f (some sub) := ⟨sel2, hp, .inr ⟨pos, sub, rfl, hm⟩⟩
    obtain ⟨stack1, _, _, _, hch⟩ := entered_below h0 hb
    obtain ⟨def_, hfine⟩ := hch.selects hs
    obtain ⟨base', ms', τ, hr', _, _, _, hd⟩ := responseType_spec hS hfine.ok.exists_.found
    rw [hr] at hr'
    cases hr'
    rw [hd]
    exact .field hb hs (hc _ _ hb _ _ _ hs) hfine.ok.exists_.found
  intro d type sels st
  fun_induction visitSelections S fragments d type sels st with
  | case1 => intros; nofun
  | case2 d type f rest st hin ih => exact fun t1 s1 s2 h1 h2 h3 h4 => ih t1 s1 s2 h1 h2 (fun _ h => h3 (List.mem_cons_of_mem _ h)) h4
  | case3 d type f rest st hin st' hr ih => exact fun t1 s1 s2 h1 h2 h3 h4 => ih t1 s1 s2 h1 h2 (fun _ h => h3 (List.mem_cons_of_mem _ h)) h4
  | case4 d type f rest st hin st' base ms hr ih =>
    exact fun t1 s1 s2 h1 h2 h3 h4 => ih t1 s1 s2 h1 h2 (fun _ h => h3 (List.mem_cons_of_mem _ h)) h4
  | case5 d type f pos sub rest st hin ih => exact fun t1 s1 s2 h1 h2 h3 h4 => ih t1 s1 s2 h1 h2 (fun _ h => h3 (List.mem_cons_of_mem _ h)) h4
  | case6 d type f pos sub rest st hin st' hr ih =>
    exact fun t1 s1 s2 h1 h2 h3 h4 => ih t1 s1 s2 h1 h2 (fun _ h => h3 (List.mem_cons_of_mem _ h)) h4
  | case7 d type f pos sub rest st hin base ms hr hcomp e he ih =>
    intro t1 s1 s2 h1 h2 h3 h4 e' h
    have hm := h3 List.mem_cons_self
    exact ih _ _ _ (below h1 h2 hm hr) .self (List.Subset.refl _) (fun h => h4 (.node hm h)) e' (by rw [he, ← h])
  | case8 d type f pos sub rest st hin st' base ms hr hcomp inner he ihs ih =>
    exact fun t1 s1 s2 h1 h2 h3 h4 => ih t1 s1 s2 h1 h2 (fun _ h => h3 (List.mem_cons_of_mem _ h)) h4
  | case9 d type f pos sub rest st hin st' base ms hr hcomp ih =>
    exact fun t1 s1 s2 h1 h2 h3 h4 => ih t1 s1 s2 h1 h2 (fun _ h => h3 (List.mem_cons_of_mem _ h)) h4
  | case10 d type pos name ds rest st hf =>
    intro t1 s1 s2 h1 h2 h3 h4 e' h
    obtain ⟨_, _, _, _, hch⟩ := checked h1 h2
    obtain ⟨_, _, fragment, hfind, _⟩ := hch.mem_spread (h3 List.mem_cons_self)
    rw [hf] at hfind
    cases hfind
  | case11 d type pos name ds rest st fragment hf hk =>
    intro t1 s1 s2 h1 h2 h3 h4 e' h
    rw [composite_find (hfragments _ (List.mem_of_find?_eq_some hf))] at hk
    cases hk
  | case12 => intros; nofun
  | case13 type pos name ds rest st fragment hf hk d e he ih =>
    intro t1 s1 s2 h1 h2 h3 h4 e' h
    have hm := h3 List.mem_cons_self
    exact ih _ _ _ h1 (Part.spread_last h2 hm hf) (List.Subset.refl _) (fun h => h4 (.spread hm hf h)) e' (by rw [he, ← h])
  | case14 type pos name ds rest st fragment hf hk d inner he ihs ih =>
    exact fun t1 s1 s2 h1 h2 h3 h4 => ih t1 s1 s2 h1 h2 (fun _ h => h3 (List.mem_cons_of_mem _ h)) h4
  | case15 d type pos ds sub rest st e he ih =>
    intro t1 s1 s2 h1 h2 h3 h4 e' h
    have hm := h3 List.mem_cons_self
    exact ih _ _ _ h1 (Part.inline_last h2 hm) (List.Subset.refl _) (fun h => h4 (.inline hm h)) e' (by rw [he, ← h])
  | case16 d type pos ds sub rest st inner he ihs ih =>
    exact fun t1 s1 s2 h1 h2 h3 h4 => ih t1 s1 s2 h1 h2 (fun _ h => h3 (List.mem_cons_of_mem _ h)) h4
  | case17 d type pos condition ds sub rest st hk =>
    intro t1 s1 s2 h1 h2 h3 h4 e' h
    have hm := h3 List.mem_cons_self
    obtain ⟨_, _, _, _, hch⟩ := checked h1 h2
    obtain ⟨_, ht, _⟩ := hch.mem_inline hm
    have hne : condition ≠ [] := by
      rintro rfl
      exact h4 (.here hm)
    rw [composite_find (ht condition rfl hne).1] at hk
    cases hk
  | case18 d type pos condition ds sub rest st hk e he ih =>
    intro t1 s1 s2 h1 h2 h3 h4 e' h
    have hm := h3 List.mem_cons_self
    have hne : condition ≠ [] := by
      rintro rfl
      exact h4 (.here hm)
    have hp := Part.inline_last h2 hm
    rw [show (if (some condition).getD [] = [] then type else (some condition).getD []) = condition from if_neg hne] at hp
    exact ih _ _ _ h1 hp (List.Subset.refl _) (fun h => h4 (.inline hm h)) e' (by rw [he, ← h])
  | case19 d type pos condition ds sub rest st hk inner he ihs ih =>
    exact fun t1 s1 s2 h1 h2 h3 h4 => ih t1 s1 s2 h1 h2 (fun _ h => h3 (List.mem_cons_of_mem _ h)) h4

/-! ## The claims -/

/-- The operation which a name asks for: the first one if the name is empty, else the first one with this name. -/
inductive Chosen (name : Str) : List Operation → Operation → Prop where
  | first {op ops} (h : name = []) : Chosen name (op :: ops) op
  | named {op ops} (h : op.name.getD [] = name) : Chosen name (op :: ops) op
  | later {op ops op'} (hne : name ≠ []) (h : op.name.getD [] ≠ name) : Chosen name ops op' → Chosen name (op :: ops) op'

theorem chooseOperation_iff {name : Str} {doc : Document} {op : Operation} :
    chooseOperation name doc = some op ↔ Chosen name doc.operations op := by
  unfold chooseOperation
  generalize doc.operations = ops
  induction ops with
  | nil => exact ⟨nofun, nofun⟩
  | cons o ops ih =>
    rw [List.find?_cons]
    by_cases h : (name.isEmpty || Validation.operationName o == name) = true
    · rw [h]
      simp only [Option.some.injEq]
      simp only [Bool.or_eq_true, List.isEmpty_iff, beq_iff_eq] at h
      constructor
      · rintro rfl
        exact h.elim .first .named
      · intro hc
        cases hc with
        | first => rfl
        | named => rfl
        | later hne hn _ => exact absurd h (by simp [hne]; exact hn)
    · have hb : (name.isEmpty || Validation.operationName o == name) = false := by simpa using h
      rw [hb, ih]
      simp only [Bool.or_eq_true, List.isEmpty_iff, beq_iff_eq, not_or] at h
      constructor
      · exact fun hc => .later h.1 h.2 hc
      · intro hc
        cases hc with
        | first hn => exact absurd hn h.1
        | named hn => exact absurd hn h.2
        | later _ _ hc => exact hc

theorem Chosen.mem {name : Str} {ops : List Operation} {op : Operation} (h : Chosen name ops op) : op ∈ ops := by
  induction h with
  | first => exact List.mem_cons_self
  | named => exact List.mem_cons_self
  | later _ _ _ ih => exact List.mem_cons_of_mem _ ih

/-- **C56** If clientgen generates code for a request, it is for the operation which the name asks for, and the members of
`Response` are those which its selections ask for. -/
theorem C56_response (hS : Ready S) (hC : Schema.Closed S) {overflow : Int → Int} {doc : Document}
    (hw : WellFormedDocument doc) {name : Str} {depth : Nat} {r : Request}
    (h : loadRequest S overflow name depth doc = .ok r) :
    Valid S overflow doc ∧ Chosen name doc.operations r.operation ∧
    S.operationType (r.operation.type.getD (str "query")) = some r.root ∧
    Members S doc.fragments r.root r.operation.sub r.fields := by
  unfold loadRequest at h
  split at h
  · cases h
  · rename_i hv
    have hvalid := (Validation.C48_accepts_iff_valid hC hw).mp hv
    unfold findOperation at h
    split at h
    · cases h
    · rename_i op root hop
      split at hop
      · cases hop
      · rename_i op' hch
        split at hop
        · rename_i root' hroot
          cases hop
          split at h
          · cases h
          · rename_i st hvisit
            cases h
            have hcho := chooseOperation_iff.mp hch
            refine ⟨hvalid, hcho, hroot, ?_⟩
            obtain ⟨used, _, _, root', fields, uses, hroot', hc, _⟩ := hvalid.operations op hcho.mem
            rw [hroot] at hroot'
            cases hroot'
            exact (visited hS hC.names hc hvisit).members
        · cases hop

/-- **C56** For a valid document with the operation, and without selection sets with two fields with the same response name
but different selections, there is a result. -/
theorem C56_total (hS : Ready S) (hC : Schema.Closed S) {overflow : Int → Int} {doc : Document}
    (hw : WellFormedDocument doc) (hvalid : Valid S overflow doc) {name : Str} {op : Operation}
    (hop : Chosen name doc.operations op)
    (hc : ∀ root, S.operationType (op.type.getD (str "query")) = some root → Consistent S doc.fragments root op.sub)
    (hf : ∀ f ∈ doc.fragments, Consistent S doc.fragments f.typeCondition f.sub)
    (he : ¬ EmptyCondition doc.fragments op.sub) :
    ∃ r, ∀ depth, doc.fragments.length ≤ depth → loadRequest S overflow name depth doc = .ok r := by
  have hv := (Validation.C48_accepts_iff_valid hC hw).mpr hvalid
  obtain ⟨used, _, _, root, fields, uses, hroot, hch, _⟩ := hvalid.operations op hop.mem
  have hent : Entered S overflow doc.fragments (some (declared op.variables)) [] root op.sub :=
    ⟨[], fields, uses, List.Subset.refl _, hch⟩
  have hac : Acyclic doc.fragments := by
    intro n f hfind
    have hmem := List.mem_of_find?_eq_some hfind
    have hn : f.name = n := by simpa using List.find?_some hfind
    rw [← hn]
    exact Validation.C20_no_cycles hC hw hv hmem (hf f hmem)
  have hcomp : ∀ f ∈ doc.fragments, S.isComposite f.typeCondition = true := by
    intro f hmem
    obtain ⟨used, hok⟩ := hvalid.fragments f hmem
    exact hok.2.1
  have h1 := visit_noexcept hS hent (hc root hroot) hcomp doc.fragments.length root op.sub {} root op.sub op.sub .self .self
    (List.Subset.refl _) he
  have h2 := visit_depth (S := S) hac doc.fragments.length root op.sub {} [] List.nodup_nil (by simp) (by simp) (by simp)
  have hload : ∀ depth st, visitSelections S doc.fragments depth root op.sub {} = .ok st →
      loadRequest S overflow name depth doc = .ok { operation := op, root := root, fields := st.fields } := by
    intro depth st hst
    unfold loadRequest findOperation
    simp only [hv, chooseOperation_iff.mpr hop, hroot, hst]
  cases hres : visitSelections S doc.fragments doc.fragments.length root op.sub {} with
  | ok st =>
    refine ⟨_, fun depth hd => hload depth st ?_⟩
    rw [visit_mono_le hd h2, hres]
  | error e =>
    cases e with
    | exception e => exact absurd hres (h1 e)
    | depth => exact absurd hres h2

/-- **C56** If the fragments have no cycles, clientgen ends, for all documents. -/
theorem C56_terminates {overflow : Int → Int} {doc : Document} (hac : Acyclic doc.fragments) {name : Str} {depth : Nat}
    (hd : doc.fragments.length ≤ depth) : loadRequest S overflow name depth doc ≠ .error .depth := by
  unfold loadRequest
  split
  · nofun
  · split
    · nofun
    · rename_i op root _
      have := visit_depth (S := S) hac depth root op.sub {} [] List.nodup_nil (by simp) (by simpa using hd) (by simp)
      split
      · rename_i e he
        rintro h
        cases h
        exact this he
      · nofun

/-- **C56** An invalid document is rejected, and so is one without the operation. -/
theorem C56_rejected (hC : Schema.Closed S) {overflow : Int → Int} {doc : Document} (hw : WellFormedDocument doc)
    {name : Str} (h : ¬ (Valid S overflow doc ∧ ∃ op, Chosen name doc.operations op)) (depth : Nat) :
    ∃ e, loadRequest S overflow name depth doc = .error (.exception e) := by
  unfold loadRequest
  split
  · exact ⟨_, rfl⟩
  · rename_i hv
    have hvalid := (Validation.C48_accepts_iff_valid hC hw).mp hv
    have hnone : chooseOperation name doc = none := by
      rw [Option.eq_none_iff_forall_not_mem]
      intro op hop
      exact h ⟨hvalid, op, chooseOperation_iff.mp hop⟩
    unfold findOperation
    rw [hnone]
    exact ⟨_, rfl⟩

end Verif.Gen.Client
