import Verif.Async.Logic
import Verif.Exec.Lemmas

/-!
# Execution with threads, compared with deferred execution
-/
namespace Verif.Async
open Verif.Value Verif.Resp Verif.Errors Verif.Ast Verif.Exec

variable {E O α β γ δ : Type} {m : Mode E O} {vals vals' : List Val} {K K' : Multiset Nat}

/-! ## Events -/

/-- The same events, in any order if there may be threads. -/
def Mode.eqv (m : Mode E O) (a b : List E) : Prop := a = b ∨ m.threads ∧ a.Perm b

theorem Mode.eqv.le {a b : List E} (h : m.eqv a b) : m.le a b := by
  rcases h with rfl | ⟨ht, h⟩
  exacts [m.refl _, m.perm ht h]

/-- Events which happen earlier than in deferred execution. -/
theorem Mode.eqv_swap {a b c d : List E} (h : m.threads ∨ b = []) : m.eqv (a ++ c ++ (b ++ d)) (a ++ b ++ (c ++ d)) := by
  rcases h with h | rfl
  · refine .inr ⟨h, ?_⟩
    simp only [List.append_assoc]
    refine (List.Perm.refl a).append ?_
    rw [← List.append_assoc, ← List.append_assoc]
    exact List.perm_append_comm.append (.refl d)
  · exact .inl (by simp)

theorem Mode.eqv.trans {a b c : List E} (h : m.eqv a b) (h' : m.eqv b c) : m.eqv a c := by
  rcases h with rfl | ⟨ht, h⟩
  · exact h'
  · rcases h' with rfl | ⟨_, h'⟩
    exacts [.inr ⟨ht, h⟩, .inr ⟨ht, h.trans h'⟩]

theorem Mode.eqv.append {a b c d : List E} (h : m.eqv a b) (h' : m.eqv c d) : m.eqv (a ++ c) (b ++ d) := by
  rcases h with rfl | ⟨ht, h⟩
  · rcases h' with rfl | ⟨ht, h'⟩
    exacts [.inl rfl, .inr ⟨ht, (List.Perm.refl _).append h'⟩]
  · rcases h' with rfl | ⟨_, h'⟩
    exacts [.inr ⟨ht, h.append (.refl _)⟩, .inr ⟨ht, h.append h'⟩]

/-! ## Computations -/

/-- An outcome which is as that of deferred execution, with results related by `R`. -/
def Ret (m : Mode E O) (run : Run E β) (R : List Val → Multiset Nat → α → β → List E → Prop) (vals : List Val) (K : Multiset Nat)
    (a : Except Exn α) (s : List E) : Prop :=
  match run.result with
  | .ok b => ∃ x s₁, a = .ok x ∧ R vals K x b s₁ ∧ m.le (run.trace ++ s₁) s
  | .error e => a = .error e ∧ K = 0 ∧ m.le run.trace s

/-- A result which leaves nothing behind. -/
def Plain (R : α → β → Prop) (_ : List Val) (K : Multiset Nat) (a : α) (b : β) (s : List E) : Prop := K = 0 ∧ R a b ∧ s = []

/-- The computation does what deferred execution does, where the events `s₁` happened before. -/
def SimA (m : Mode E O) (vals : List Val) (K : Multiset Nat) (s₁ : List E) (c : Comp E O α) (run : Run E β)
    (R : List Val → Multiset Nat → α → β → List E → Prop) : Prop := Tri m vals K c fun v k a s => Ret m run R v k a (s₁ ++ s)

/-- The computation does what deferred execution does. -/
abbrev Sim (m : Mode E O) (vals : List Val) (c : Comp E O α) (run : Run E β)
    (R : List Val → Multiset Nat → α → β → List E → Prop) : Prop := SimA m vals 0 [] c run R

theorem Ret.weaken {run : Run E β} {R R' : List Val → Multiset Nat → α → β → List E → Prop} {a : Except Exn α} {s : List E}
    (h : Ret m run R vals K a s) (hr : ∀ x b s, run.result = .ok b → R vals K x b s → R' vals K x b s) : Ret m run R' vals K a s := by
  unfold Ret at h ⊢
  cases hb : run.result with
  | error e => simpa [hb] using h
  | ok b =>
    simp only [hb] at h ⊢
    obtain ⟨x, s₁, h1, h2, h3⟩ := h
    exact ⟨x, s₁, h1, hr _ _ _ hb h2, h3⟩

theorem SimA.weaken {c : Comp E O α} {run : Run E β} {s₁ : List E} {R R' : List Val → Multiset Nat → α → β → List E → Prop}
    (h : SimA m vals K s₁ c run R)
    (hr : ∀ vals' K x b s, vals <+: vals' → run.result = .ok b → R vals' K x b s → R' vals' K x b s) : SimA m vals K s₁ c run R' :=
  Tri.weaken h fun _ _ _ _ hv hq => hq.weaken fun _ _ _ hb hx => hr _ _ _ _ _ hv hb hx

theorem SimA.bind {c : Comp E O α} {run : Run E γ} {f : α → Comp E O β} {g : γ → Run E δ} {s₁ : List E}
    {R : List Val → Multiset Nat → α → γ → List E → Prop} {R' : List Val → Multiset Nat → β → δ → List E → Prop}
    (h : SimA m vals K s₁ c run R)
    (hok : ∀ vals' K' x b s₂, vals <+: vals' → run.result = .ok b → R vals' K' x b s₂ → SimA m vals' K' s₂ (f x) (g b) R') :
    SimA m vals K s₁ (c.bind f) (run.bind g) R' := by
  refine Tri.bind h (fun vals' K' a s hv hq => ?_) fun vals' K' e s hv hq => ?_
  · cases hr : run.result with
    | error e => simp [Ret, hr] at hq
    | ok b =>
      simp only [Ret, hr] at hq
      obtain ⟨x, s₂, h1, h2, h3⟩ := hq
      cases h1
      refine Tri.weaken (hok vals' K' a b s₂ hv hr h2) fun vals'' K'' a' s' _ hq' => ?_
      have e1 : (run.bind g).result = (g b).result := by simp [Run.bind, hr]
      have e2 : (run.bind g).trace = run.trace ++ (g b).trace := by simp [Run.bind, hr]
      simp only [Ret, e1, e2] at hq' ⊢
      cases hg : (g b).result with
      | ok d =>
        simp only [hg] at hq' ⊢
        obtain ⟨y, s₃, h4, h5, h6⟩ := hq'
        refine ⟨y, s₃, h4, h5, ?_⟩
        have := m.append (m.refl run.trace) h6
        rw [← List.append_assoc, ← List.append_assoc] at this
        rw [← List.append_assoc]
        exact m.trans this (m.append h3 (m.refl _))
      | error e =>
        simp only [hg] at hq' ⊢
        refine ⟨hq'.1, hq'.2.1, ?_⟩
        have := m.append (m.refl run.trace) hq'.2.2
        rw [← List.append_assoc] at this
        rw [← List.append_assoc]
        exact m.trans this (m.append h3 (m.refl _))
  · cases hr : run.result with
    | ok b =>
      simp only [Ret, hr] at hq
      obtain ⟨x, s₂, h1, _⟩ := hq
      cases h1
    | error e' =>
      simp only [Ret, hr] at hq
      obtain ⟨h1, h2, h3⟩ := hq
      cases h1
      simp only [Ret, Run.bind, hr]
      exact ⟨trivial, h2, h3⟩

/-- Results which leave nothing. -/
theorem SimA.bind_plain {c : Comp E O α} {run : Run E γ} {f : α → Comp E O β} {g : γ → Run E δ} {R : α → γ → Prop} {s₁ : List E}
    {R' : List Val → Multiset Nat → β → δ → List E → Prop} (h : SimA m vals K s₁ c run (Plain R))
    (hok : ∀ vals' x b, vals <+: vals' → run.result = .ok b → R x b → Sim m vals' (f x) (g b) R') :
    SimA m vals K s₁ (c.bind f) (run.bind g) R' :=
  h.bind fun vals' K' x b s₁ hv hr hR => by
    obtain ⟨rfl, hx, rfl⟩ := hR
    exact hok vals' x b hv hr hx

theorem SimA.pure {x : α} {b : β} {s₁ : List E} {R : List Val → Multiset Nat → α → β → List E → Prop}
    (h : ∀ vals', vals <+: vals' → R vals' K x b s₁) : SimA m vals K s₁ (Comp.pure x) (Run.pure b) R :=
  Tri.pure fun vals' hv => ⟨x, s₁, rfl, h vals' hv, by simpa [Run.pure] using m.refl _⟩

theorem Sim.throw {e : Exn} {R : List Val → Multiset Nat → α → β → List E → Prop} :
    Sim m vals (Comp.throw e) (Run.throw e) R :=
  Tri.throw fun _ _ => ⟨rfl, rfl, m.refl _⟩

theorem ret_iff {run : Run E α} {a : Except Exn α} {s : List E} :
    Ret m run (Plain Eq) vals K a s ↔ K = 0 ∧ a = run.result ∧ m.le run.trace s := by
  unfold Ret
  cases hr : run.result with
  | ok b =>
    constructor
    · rintro ⟨x, s₁, rfl, ⟨rfl, rfl, rfl⟩, hl⟩
      exact ⟨rfl, rfl, by simpa using hl⟩
    · rintro ⟨rfl, rfl, hl⟩
      exact ⟨b, [], rfl, ⟨rfl, rfl, rfl⟩, by simpa using hl⟩
  | error e => exact ⟨fun h => ⟨h.2.1, h.1, h.2.2⟩, fun h => ⟨h.2.1, h.1, h.2.2⟩⟩

theorem Sim.lift {r : Except Exn α} : Sim m vals (Comp.lift r : Comp E O α) (Run.lift r) (Plain Eq) :=
  Tri.lift fun _ _ => ret_iff.2 ⟨rfl, rfl, m.refl _⟩

theorem Sim.user {run : Run E α} (ha : ∀ e ∈ run.trace, m.rules.known → m.rules.owner e = none) : Sim m vals (Comp.user run) run (Plain Eq) :=
  Tri.user ha fun _ _ => ret_iff.2 ⟨rfl, rfl, m.refl _⟩

theorem Sim.locked {o : O} {run : Run E α} (hc : m.rules.call o run.trace) (ha : m.rules.known → ∀ e ∈ run.trace, m.rules.owner e = some o) :
    Sim m vals (Comp.locked o run) run (Plain Eq) :=
  Tri.locked hc ha fun _ _ => ret_iff.2 ⟨rfl, rfl, m.refl _⟩

/-! ## Futures -/

/-- A result, after the events `rest` at least. -/
def Does (m : Mode E O) (r : Except Exn α) (rest : List E) (_ : List Val) (k : Multiset Nat) (a : Except Exn α) (s : List E) : Prop :=
  k = 0 ∧ a = r ∧ m.le rest s

/-- `s` are the events which `f` has had already, and `rest` those to come. -/
structure FutSim (m : Mode E O) (vals : List Val) (K : Multiset Nat) (f : Future E O) (run : Fut E) (s rest : List E) : Prop where
  trace : m.eqv run.trace (s ++ rest)
  early : m.threads ∨ s = []
  what : match (generalizing := false) f with
    | .thread i => rest = [] ∧ K = {i} ∧ vals[i]? = some run.result
    | .deferred c owned => K = ↑owned ∧ (∀ i ∈ owned, i < vals.length) ∧ Tri m vals K c (Does m run.result rest)

/-- The same for lists of futures. -/
inductive FutSims (m : Mode E O) (vals : List Val) :
    Multiset Nat → List (Future E O) → List (Fut E) → List E → List E → Prop where
  | nil : FutSims m vals 0 [] [] [] []
  | cons {K₁ K₂ f run fs runs s₁ s₂ r₁ r₂} (h : FutSim m vals K₁ f run s₁ r₁) (t : FutSims m vals K₂ fs runs s₂ r₂) :
      FutSims m vals (K₁ + K₂) (f :: fs) (run :: runs) (s₁ ++ s₂) (r₁ ++ r₂)

theorem FutSim.mono {f : Future E O} {run : Fut E} {s rest : List E} (h : FutSim m vals K f run s rest) (hv : vals <+: vals') :
    FutSim m vals' K f run s rest := by
  refine ⟨h.trace, h.early, ?_⟩
  have := h.what
  cases f with
  | thread i => exact ⟨this.1, this.2.1, prefix_get hv this.2.2⟩
  | deferred c owned => exact ⟨this.1, fun i hi => Nat.lt_of_lt_of_le (this.2.1 i hi) hv.length_le, this.2.2.mono hv⟩

variable {fs fs' : List (Future E O)} {runs runs' : List (Fut E)} {s s' rest rest' : List E}

theorem FutSims.mono (h : FutSims m vals K fs runs s rest) (hv : vals <+: vals') :
    FutSims m vals' K fs runs s rest := by
  induction h with
  | nil => exact .nil
  | cons h _ ih => exact .cons (h.mono hv) ih

theorem FutSims.append (h : FutSims m vals K fs runs s rest) (h' : FutSims m vals K' fs' runs' s' rest') :
    FutSims m vals (K + K') (fs ++ fs') (runs ++ runs') (s ++ s') (rest ++ rest') := by
  induction h with
  | nil => simpa using h'
  | cons h _ ih =>
    simp only [List.cons_append, add_assoc, List.append_assoc]
    exact .cons h ih

theorem FutSims.snoc {f : Future E O} {run : Fut E} (h : FutSims m vals K fs runs s rest)
    (h' : FutSim m vals K' f run s' rest') : FutSims m vals (K + K') (fs ++ [f]) (runs ++ [run]) (s ++ s') (rest ++ rest') := by
  have := h.append (.cons h' .nil)
  simpa using this

/-- Without threads nothing has happened before `get`. -/
theorem FutSims.early (h : FutSims m vals K fs runs s rest) : m.threads ∨ s = [] := by
  induction h with
  | nil => exact .inr rfl
  | cons h _ ih =>
    rcases h.early with h | rfl
    · exact .inl h
    · simpa using ih

theorem FutSim.owned {f : Future E O} {run : Fut E} (h : FutSim m vals K f run s rest) :
    K = ↑f.owned ∧ ∀ i ∈ f.owned, i < vals.length := by
  have := h.what
  cases f with
  | thread i => exact ⟨by simpa [Future.owned] using this.2.1, by simpa [Future.owned] using (List.getElem?_eq_some_iff.1 this.2.2).1⟩
  | deferred c owned => exact ⟨this.1, this.2.1⟩

theorem FutSims.owned (h : FutSims m vals K fs runs s rest) : K = ↑(ownedBy fs) ∧ ∀ i ∈ ownedBy fs, i < vals.length := by
  induction h with
  | nil => exact ⟨rfl, by simp [ownedBy]⟩
  | cons h _ ih =>
    obtain ⟨h1, h2⟩ := h.owned
    simp only [ownedBy, List.flatMap_cons] at ih ⊢
    refine ⟨by rw [← Multiset.coe_add, ← h1, ← ih.1], fun i hi => ?_⟩
    rcases List.mem_append.1 hi with hi | hi
    exacts [h2 i hi, ih.2 i hi]

/-- `get()` -/
theorem FutSim.get_does {f : Future E O} {run : Fut E} (h : FutSim m vals K f run s rest) :
    Tri m vals K f.get (Does m run.result rest) := by
  have := h.what
  cases f with
  | deferred c owned => exact this.2.2
  | thread i =>
    obtain ⟨rfl, rfl, h3⟩ := this
    intro vals₀ hv κ r T F hT hκ
    refine .join (K' := F) (by simp) (prefix_get hv h3) ?_
    have := hκ vals₀ 0 run.result [] (List.prefix_refl _) ⟨rfl, rfl, m.refl _⟩
    simpa using this

theorem FutSim.get {f : Future E O} {run : Fut E} (h : FutSim m vals K f run s rest) :
    SimA m vals K s f.get run (Plain Eq) := by
  refine h.get_does.weaken fun vals' K' a s' hv hq => ret_iff.2 ⟨hq.1, hq.2.1, ?_⟩
  exact m.trans h.trace.le (m.append (m.refl _) hq.2.2)

theorem FutSim.ready (v : Val) : FutSim m vals 0 (Future.ready v : Future E O) ⟨[], v⟩ [] [] :=
  ⟨.inl rfl, .inr rfl, rfl, by simp, Tri.lift (a := v) fun _ _ => ⟨rfl, rfl, m.refl _⟩⟩

/-- Results which are futures. -/
def IsFut (m : Mode E O) (vals : List Val) (K : Multiset Nat) (f : Future E O) (run : Fut E) (s : List E) : Prop :=
  ∃ rest, FutSim m vals K f run s rest

/-- `std::async` -/
theorem SimA.async {launch : Launch} {c : Comp E O Result} {owned : List Nat} {run : Fut E} (hl : launch = .deferred ∨ m.threads)
    (ho : ∀ i ∈ owned, i < vals.length) (ht : m.eqv run.trace (s ++ rest)) (hs : m.threads ∨ s = [])
    (h : Tri m vals (↑owned) c (Does m run.result rest)) :
    SimA m vals (↑owned) s (async launch c owned) (Run.pure run) (IsFut m) := by
  refine Tri.async (v := run.result) (S := rest) hl h (fun vals' hv => ?_) fun hm vals' hv i hi => ?_
  · exact ⟨_, s, rfl, ⟨rest, ht, hs, rfl, fun i hi => Nat.lt_of_lt_of_le (ho i hi) hv.length_le, Tri.mono h hv⟩, by
      simpa [Run.pure] using m.refl _⟩
  · exact ⟨_, s ++ rest, rfl, ⟨[], by simpa using ht, .inl hm, rfl, rfl, hi⟩, by simpa [Run.pure] using m.refl _⟩

/-- `std::async` of a function without futures. -/
theorem Sim.async {launch : Launch} {c : Comp E O Result} {run : Fut E} (hl : launch = .deferred ∨ m.threads)
    (h : ∀ vals', vals <+: vals' → Sim m vals' c run (Plain Eq)) :
    Sim m vals (async launch c []) (Run.pure run) (IsFut m) := by
  refine SimA.async (owned := []) (rest := run.trace) hl (by simp) (.inl rfl) (.inr rfl) ?_
  exact Tri.weaken (h vals (List.prefix_refl _)) fun _ _ _ _ _ hq => ret_iff.1 hq

/-- Destroying futures. -/
theorem Tri.unwind {c : Comp E O α} {Q₀ Q : List Val → Multiset Nat → Except Exn α → List E → Prop}
    (hf : FutSims m vals K fs runs s rest)
    (hc : Tri m vals 0 c Q₀)
    (hok : ∀ vals' k x t, vals <+: vals' → Q₀ vals' k (.ok x) t → Q vals' (K + k) (.ok x) t)
    (herr : ∀ vals' k e t, vals <+: vals' → Q₀ vals' k (.error e) t → k = 0 ∧ Q vals' 0 (.error e) t) :
    Tri m vals K (unwind fs c) Q := by
  intro vals₀ hv κ r T F hT hκ
  have e : K + F = 0 + (K + F) := by simp
  rw [e]
  refine hc vals₀ hv _ r T (K + F) hT fun vals' k a' s hv' hq => ?_
  cases a' with
  | ok x =>
    rw [← add_assoc, add_comm k]
    exact hκ vals' (K + k) (.ok x) s hv' (hok vals' k x s (hv.trans hv') hq)
  | error e =>
    obtain ⟨rfl, h0⟩ := herr vals' k e s (hv.trans hv') hq
    have h1 := hκ vals' 0 (.error e) s hv' h0
    obtain ⟨h2, h3⟩ := (hf.mono (hv.trans hv')).owned
    simp only [zero_add] at h1 ⊢
    rw [h2]
    exact den_waitAll h1 h3

/-- Nothing is lost if events have happened in vain. -/
def Loses (m : Mode E O) : Prop := m.more ∨ ¬ m.threads

/-- These events may have happened in vain. -/
def InVain (m : Mode E O) (s : List E) : Prop := ∀ t, m.le t (s ++ t)

theorem InVain.nil : InVain m [] := fun _ => m.refl _

theorem FutSims.lost (h : FutSims m vals K fs runs s rest) (hd : Loses m) : InVain m s := by
  intro t
  have : m.more ∨ s = [] := by
    rcases hd with hd | hd
    · exact .inl hd
    · rcases h.early with h | h
      exacts [absurd h hd, .inr h]
  rcases this with hm | rfl
  · exact m.append (a := []) (m.extra hm [] s) (m.refl t)
  · exact m.refl t

/-- A computation in presence of futures, which are destroyed if it throws. -/
theorem SimA.unwind {c : Comp E O α} {run : Run E β} {R : List Val → Multiset Nat → α → β → List E → Prop} (hc : Sim m vals c run R)
    (hf : FutSims m vals K fs runs s rest) (hd : InVain m s ∨ ∃ b, run.result = .ok b) :
    SimA m vals K s (unwind fs c) run fun v k x b s' => ∃ k' s'', k = K + k' ∧ s' = s ++ s'' ∧ vals <+: v ∧ R v k' x b s'' := by
  refine Tri.unwind hf hc (fun vals' k x t hv hq => ?_) fun vals' k e t hv hq => ?_
  · simp only [Ret, List.nil_append] at hq ⊢
    cases hr : run.result with
    | error e => simp [hr] at hq
    | ok b =>
      simp only [hr] at hq ⊢
      obtain ⟨y, s₁, h1, h2, h3⟩ := hq
      refine ⟨y, s ++ s₁, h1, ⟨k, s₁, rfl, rfl, hv, h2⟩, ?_⟩
      have e := Mode.eqv_swap (m := m) (a := []) (c := run.trace) (d := s₁) hf.early
      simp only [List.nil_append] at e
      exact m.trans e.le (m.append (m.refl _) h3)
  · simp only [Ret, List.nil_append] at hq ⊢
    cases hr : run.result with
    | ok b =>
      simp only [hr] at hq
      obtain ⟨x, s₁, h1, _⟩ := hq
      cases h1
    | error e' =>
      simp only [hr] at hq ⊢
      refine ⟨hq.2.1, hq.1, trivial, ?_⟩
      rcases hd with hd | ⟨b, hb⟩
      · exact m.trans (hd _) (m.append (m.refl _) hq.2.2)
      · simp [hr] at hb

theorem Tri.frame {c : Comp E O α} {Q : List Val → Multiset Nat → Except Exn α → List E → Prop} (h : Tri m vals K c Q) (G : Multiset Nat) :
    Tri m vals (K + G) c fun v k a s => ∃ k', k = k' + G ∧ Q v k' a s := by
  intro vals₀ hv κ r T F hT hκ
  rw [add_assoc]
  refine h vals₀ hv κ r T (G + F) hT fun vals' K' a s hv' hq => ?_
  rw [← add_assoc]
  exact hκ vals' (K' + G) a s hv' ⟨K', rfl, hq⟩

/-- A computation which does not throw, in presence of futures. -/
theorem SimA.frame {c : Comp E O α} {run : Run E β} {R : List Val → Multiset Nat → α → β → List E → Prop} (hc : Sim m vals c run R)
    (hr : ∃ b, run.result = .ok b) (hs : m.threads ∨ s = []) :
    SimA m vals K s c run fun v k x b s' => ∃ k' s'', k = K + k' ∧ s' = s ++ s'' ∧ vals <+: v ∧ R v k' x b s'' := by
  obtain ⟨b, hr⟩ := hr
  have := Tri.frame hc K
  rw [zero_add] at this
  refine this.weaken fun vals' k a t hv hq => ?_
  obtain ⟨k', rfl, hq⟩ := hq
  simp only [Ret, hr, List.nil_append] at hq ⊢
  obtain ⟨x, s₁, h1, h2, h3⟩ := hq
  refine ⟨x, s ++ s₁, h1, ⟨k', s₁, add_comm _ _, rfl, hv, h2⟩, ?_⟩
  have e := Mode.eqv_swap (m := m) (a := []) (c := run.trace) (d := s₁) hs
  simp only [List.nil_append] at e
  exact m.trans e.le (m.append (m.refl _) h3)

/-- Exceptions become futures. -/
theorem Sim.handle {c : Comp E O (Future E O)} {run : Run E (Fut E)} (hc : Sim m vals c run (IsFut m)) (g : Exn → Exn) :
    Sim m vals (c.handle fun e => .ready (.error (g e))) (run.handle fun e => .throw (g e)) (IsFut m) := by
  refine Tri.handle hc (fun vals' k a t hv hq => ?_) fun vals' k e t hv hq => ?_
  · simp only [Ret, Run.handle] at hq ⊢
    cases hr : run.result with
    | ok b => simpa [hr] using hq
    | error e => simp [hr] at hq
  · simp only [Ret, Run.handle] at hq ⊢
    cases hr : run.result with
    | ok b => simp [hr] at hq
    | error e' =>
      simp only [hr] at hq ⊢
      obtain ⟨h1, rfl, h3⟩ := hq
      cases h1
      exact ⟨_, [], rfl, ⟨[], FutSim.ready _⟩, by simpa using h3⟩

/-! ## Collecting results -/

theorem Tri.next {c : Comp E O α} {f : Except Exn α → Comp E O β} {Q : List Val → Multiset Nat → Except Exn α → List E → Prop}
    {Q' : List Val → Multiset Nat → Except Exn β → List E → Prop} (h : Tri m vals K c Q)
    (hf : ∀ vals' K' a s, vals <+: vals' → Q vals' K' a s → Tri m vals' K' (f a) fun v k b s' => Q' v k b (s ++ s')) :
    Tri m vals K (fun k => c fun r => f r k) Q' := by
  intro vals₀ hv₀ κ r T F hT hκ
  refine h _ hv₀ _ r T F hT fun vals' K' a s hv hQ => ?_
  refine hf _ _ _ _ (hv₀.trans hv) hQ _ (List.prefix_refl _) κ r _ F (hT.after s) fun vals'' K'' b s' hv' hQ' => ?_
  have := hκ _ _ _ _ (hv.trans hv') hQ'
  simpa [List.append_assoc] using this

/-- One future after the other. -/
theorem FutSim.get_then {f : Future E O} {run : Fut E} {K₁ K₂ : Multiset Nat} {r₂ : List E} {g : Val → Comp E O Result}
    {r : Val} (h : FutSim m vals K₁ f run s rest)
    (hg : ∀ vals', vals <+: vals' → Tri m vals' K₂ (g run.result) (Does m r r₂)) :
    Tri m vals (K₁ + K₂) (fun k => f.get fun r => g r k) (Does m r (rest ++ r₂)) := by
  refine Tri.next (h.get_does.frame K₂) fun vals' K' a s hv hq => ?_
  obtain ⟨k', rfl, rfl, rfl, hl⟩ := hq
  rw [zero_add]
  exact (hg vals' hv).weaken fun vals'' K'' b s' _ hd => ⟨hd.1, hd.2.1, m.append hl hd.2.2⟩

theorem collectFields_sim : {vs : List (Str × Future E O)} → {vs' : List (Str × Fut E)} → {vals : List Val} → {K : Multiset Nat} →
    {s rest : List E} → (ms : Members) → (errors : List SchemaError) → vs.map (·.1) = vs'.map (·.1) →
    FutSims m vals K (vs.map (·.2)) (vs'.map (·.2)) s rest →
    Tri m vals K (collectFields vs ms errors) (Does m (Exec.collectFields vs' ms errors).result rest) ∧
      m.eqv (Exec.collectFields vs' ms errors).trace (s ++ rest)
  | [], [], _, _, _, _, ms, errors, _, h => by
    cases h
    exact ⟨Tri.pure fun _ _ => ⟨rfl, rfl, m.refl _⟩, .inl rfl⟩
  | [], _ :: _, _, _, _, _, _, _, hn, _ => by simp at hn
  | _ :: _, [], _, _, _, _, _, _, hn, _ => by simp at hn
  | (name, child) :: rest, (name', child') :: rest', vals, _, _, _, ms, errors, hn, h => by
    simp only [List.map_cons, List.cons.injEq] at hn h
    obtain ⟨rfl, hn⟩ := hn
    cases h with
    | cons h t =>
      refine ⟨h.get_then fun vals' hv => (collectFields_sim _ _ hn (t.mono hv)).1, ?_⟩
      exact (h.trace.append (collectFields_sim _ _ hn t).2).trans (Mode.eqv_swap t.early)

theorem collectElements_sim (params : ResolverParams E O) (params' : Exec.ResolverParams E O) (hs : params.set = params'.set)
    (hp : params.pos = params'.pos) (hf : params.fieldName = params'.fieldName) :
    {fs : List (Future E O)} → {runs : List (Fut E)} → {vals : List Val} → {K : Multiset Nat} → {s rest : List E} → (i : Nat) →
    (data : List Resp) → (errors : List SchemaError) → FutSims m vals K fs runs s rest →
    Tri m vals K (collectElements params i fs data errors) (Does m (Exec.collectElements params' i runs data errors).result rest) ∧
      m.eqv (Exec.collectElements params' i runs data errors).trace (s ++ rest)
  | _, _, _, _, _, _, _, _, _, .nil => ⟨Tri.pure fun _ _ => ⟨rfl, rfl, m.refl _⟩, .inl rfl⟩
  | _, _, vals, _, _, _, i, data, errors, .cons (run := run) h t => by
    unfold collectElements Exec.collectElements
    refine ⟨h.get_then fun vals' hv => ?_, (h.trace.append ?_).trans (Mode.eqv_swap t.early)⟩
    · rcases hr : run.result with (es | what) | value
      · exact (collectElements_sim params params' hs hp hf (i + 1) _ _ (t.mono hv)).1
      · have := (collectElements_sim params params' hs hp hf (i + 1) data (errors ++ [{
          message := str "Field error name: " ++ params.fieldName ++ str " unknown error: " ++ what
          location := params.pos
          path := buildErrorPath (params.atIndex i).set.errorPath }]) (t.mono hv)).1
        simpa [ResolverParams.atIndex, Exec.ResolverParams.atIndex, hs, hp, hf, Run.emit, Run.bind] using this
      · exact (collectElements_sim params params' hs hp hf (i + 1) _ _ (t.mono hv)).1
    · exact (collectElements_sim params params' hs hp hf (i + 1) _ _ t).2

end Verif.Async
