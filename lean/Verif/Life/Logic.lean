import Verif.Life.Model
import Mathlib.Data.Set.Basic
import Mathlib.Data.Set.Insert

/-!
# Ownership

A thread owns objects, borrows others, and is responsible for other threads (it has to wait for them), to which it has lent objects. A
program is `Safe` if it only uses (for the purposes `G`) what it owns or borrows, only destroys what it owns and has not lent, and waits
for its threads, and destroys what it owns, before it ends. The results of threads are among `R`.
-/
namespace Verif.Life

/-- The threads which have to be waited for, with what they borrow. -/
abbrev Kids := List (Nat × Set Addr)

inductive Safe (G : Use → Prop) (R : Except Exc Unit → Prop) : Set Addr → Set Addr → Kids → Prog → Prop where
  | done {lent r} (h : R r) : Safe G R ∅ lent [] (.done r)
  | abort {own lent kids} : Safe G R own lent kids .abort
  | alloc {own lent kids next} (h : ∀ a, a ∉ own ∪ lent → Safe G R (insert a own) lent kids (next a)) : Safe G R own lent kids (.alloc next)
  | free {own lent kids a next} (ha : a ∈ own) (hk : ∀ e ∈ kids, a ∉ e.2) (h : Safe G R (own \ {a}) lent kids next) :
      Safe G R own lent kids (.free a next)
  | use {own lent kids u as next} (hu : G u → ∀ a ∈ as, a ∈ own ∪ lent) (h : Safe G R own lent kids next) :
      Safe G R own lent kids (.use u as next)
  | fork {own lent kids moved rest B child next} (hp : kids.Perm (moved ++ rest)) (hB : B ⊆ own ∪ lent)
      (hm : ∀ e ∈ moved, e.2 ⊆ B) (hc : Safe G R ∅ B moved child) (h : ∀ i, Safe G R own lent ((i, B) :: rest) (next i)) :
      Safe G R own lent kids (.fork child next)
  | join {own lent kids i B rest next} (hp : kids.Perm ((i, B) :: rest)) (h : ∀ r, R r → Safe G R own lent rest (next r)) :
      Safe G R own lent kids (.join i next)
  | choose {own lent kids next} (h : ∀ b, Safe G R own lent kids (next b)) : Safe G R own lent kids (.choose next)

variable {G : Use → Prop} {R : Except Exc Unit → Prop}

theorem Safe.perm {own lent : Set Addr} {kids kids' : Kids} {p : Prog} (h : Safe G R own lent kids p) (hp : kids.Perm kids') :
    Safe G R own lent kids' p := by
  induction h generalizing kids' with
  | done h => rw [List.nil_perm.1 hp]; exact .done h
  | abort => exact .abort
  | alloc _ ih => exact .alloc fun a ha => ih a ha hp
  | free ha hk _ ih => exact .free ha (fun e he => hk e (hp.mem_iff.2 he)) (ih hp)
  | use hu _ ih => exact .use hu (ih hp)
  | fork hp' hB hm hc h _ _ => exact .fork (hp.symm.trans hp') hB hm hc h
  | join hp' h _ => exact .join (hp.symm.trans hp') h
  | choose _ ih => exact .choose fun b => ih b hp

/-! What safety of each statement says. -/

theorem Safe.alloc_inv {own lent : Set Addr} {kids : Kids} {next : Addr → Prog} (h : Safe G R own lent kids (.alloc next)) :
    ∀ a, a ∉ own ∪ lent → Safe G R (insert a own) lent kids (next a) := by
  cases h with | alloc h => exact h

theorem Safe.free_inv {own lent : Set Addr} {kids : Kids} {a : Addr} {next : Prog} (h : Safe G R own lent kids (.free a next)) :
    a ∈ own ∧ (∀ e ∈ kids, a ∉ e.2) ∧ Safe G R (own \ {a}) lent kids next := by
  cases h with | free ha hk h => exact ⟨ha, hk, h⟩

theorem Safe.use_inv {own lent : Set Addr} {kids : Kids} {u : Use} {as : List Addr} {next : Prog}
    (h : Safe G R own lent kids (.use u as next)) : (G u → ∀ a ∈ as, a ∈ own ∪ lent) ∧ Safe G R own lent kids next := by
  cases h with | use hu h => exact ⟨hu, h⟩

theorem Safe.fork_inv {own lent : Set Addr} {kids : Kids} {child : Prog} {next : Nat → Prog}
    (h : Safe G R own lent kids (.fork child next)) : ∃ moved rest B, kids.Perm (moved ++ rest) ∧ B ⊆ own ∪ lent ∧
      (∀ e ∈ moved, e.2 ⊆ B) ∧ Safe G R ∅ B moved child ∧ ∀ i, Safe G R own lent ((i, B) :: rest) (next i) := by
  cases h with | fork hp hB hm hc h => exact ⟨_, _, _, hp, hB, hm, hc, h⟩

theorem Safe.join_inv {own lent : Set Addr} {kids : Kids} {i : Nat} {next : Except Exc Unit → Prog}
    (h : Safe G R own lent kids (.join i next)) : ∃ B rest, kids.Perm ((i, B) :: rest) ∧ ∀ r, R r → Safe G R own lent rest (next r) := by
  cases h with | join hp h => exact ⟨_, _, hp, h⟩

theorem Safe.choose_inv {own lent : Set Addr} {kids : Kids} {next : Bool → Prog} (h : Safe G R own lent kids (.choose next)) :
    ∀ b, Safe G R own lent kids (next b) := by
  cases h with | choose h => exact h

theorem Safe.done_inv {own lent : Set Addr} {kids : Kids} {r : Except Exc Unit} (h : Safe G R own lent kids (.done r)) :
    R r ∧ kids = [] ∧ own = ∅ := by
  cases h with | done h => exact ⟨h, rfl, rfl⟩

/-- What is known of a thread. -/
structure Ghost where
  own : Set Addr
  lent : Set Addr
  kids : Kids

/-- What is true in all states: the objects which a thread owns are alive, and no other thread owns them; what a thread borrows is lent to
it by a thread which has to wait for it; these are not a cycle. -/
structure Inv (G : Use → Prop) (R : Except Exc Unit → Prop) (σ : State) (g : Nat → Ghost) (rank : Nat → Nat) : Prop where
  safe : ∀ i p, σ.threads[i]? = some p → Safe G R (g i).own (g i).lent (g i).kids p
  live : ∀ i, ∀ a ∈ (g i).own, σ.live a ∧ a < σ.fresh
  apart : ∀ i j, ∀ a ∈ (g i).own, a ∈ (g j).own → i = j
  lent : ∀ i, ∀ a ∈ (g i).lent, ∃ j B, (i, B) ∈ (g j).kids ∧ a ∈ B
  kids : ∀ j, ∀ e ∈ (g j).kids, e.2 ⊆ (g j).own ∪ (g j).lent ∧ rank j < rank e.1 ∧ e.1 < σ.threads.length ∧ j < σ.threads.length
  nodup : ∀ j, ((g j).kids.map (·.1)).Nodup
  single : ∀ j j' i, i ∈ (g j).kids.map (·.1) → i ∈ (g j').kids.map (·.1) → j = j'
  awaited : ∀ i p, σ.threads[i]? = some p → i ≠ 0 → (∃ r, p = .done r) ∨ ∃ j B, (i, B) ∈ (g j).kids
  owned : ∀ a, σ.live a → ∃ i, i < σ.threads.length ∧ a ∈ (g i).own

theorem Inv.owner {σ : State} {g : Nat → Ghost} {rank : Nat → Nat} (h : Inv G R σ g rank) : ∀ n i, rank i = n → ∀ a ∈ (g i).lent,
    ∃ j, a ∈ (g j).own ∧ ∃ e ∈ (g j).kids, a ∈ e.2 := by
  intro n
  induction n using Nat.strongRecOn with
  | _ n ih =>
    intro i hi a ha
    obtain ⟨j, B, hj, haB⟩ := h.lent i a ha
    obtain ⟨hsub, hr, _⟩ := h.kids j _ hj
    rcases hsub haB with ho | hl
    · exact ⟨j, ho, _, hj, haB⟩
    · exact ih (rank j) (by simpa [hi] using hr) j rfl a hl

theorem Inv.usable {σ : State} {g : Nat → Ghost} {rank : Nat → Nat} (h : Inv G R σ g rank) {i : Nat} {a : Addr}
    (ha : a ∈ (g i).own ∪ (g i).lent) : σ.live a ∧ a < σ.fresh := by
  rcases ha with ha | ha
  · exact h.live i a ha
  · obtain ⟨j, hj, _⟩ := h.owner _ i rfl a ha
    exact h.live j a hj

theorem getElem?_set_cases {α : Type} {l : List α} {i j : Nat} {x y : α} (h : (l.set i x)[j]? = some y) :
    (j = i ∧ y = x) ∨ (j ≠ i ∧ l[j]? = some y) := by
  rw [List.getElem?_set] at h
  by_cases hij : i = j
  · rw [if_pos hij] at h
    split at h
    · cases h; exact .inl ⟨hij.symm, rfl⟩
    · cases h
  · rw [if_neg hij] at h
    exact .inr ⟨fun h => hij h.symm, h⟩

/-- A thread goes on with what it has. -/
theorem Inv.go {σ : State} {g : Nat → Ghost} {rank : Nat → Nat} (h : Inv G R σ g rank) {i : Nat} {p q : Prog}
    (hi : σ.threads[i]? = some q) (hq : ∀ r, q ≠ .done r) (hp : Safe G R (g i).own (g i).lent (g i).kids p) : Inv G R { σ with threads := σ.threads.set i p } g rank where
  safe j p' hp' := by
    rcases getElem?_set_cases hp' with ⟨rfl, rfl⟩ | ⟨_, hp'⟩
    · exact hp
    · exact h.safe j p' hp'
  live := h.live
  apart := h.apart
  lent := h.lent
  kids j e he := by simpa using h.kids j e he
  nodup := h.nodup
  single := h.single
  awaited j p' hp' hj := by
    rcases getElem?_set_cases hp' with ⟨rfl, rfl⟩ | ⟨_, hp'⟩
    · exact .inr ((h.awaited _ _ hi hj).resolve_left fun ⟨r, hr⟩ => hq r hr)
    · exact h.awaited j p' hp' hj
  owned a ha := by simpa using h.owned a ha

theorem Inv.step {σ σ' : State} {g : Nat → Ghost} {rank : Nat → Nat} (h : Inv G R σ g rank) (hs : Step σ σ') :
    ∃ g' rank', Inv G R σ' g' rank' := by
  classical
  cases hs with
  | @alloc i next hi =>
    have hsafe := h.safe i _ hi
    have hn := hsafe.alloc_inv
    have hfresh : ∀ j, σ.fresh ∉ (g j).own := fun j hj => Nat.lt_irrefl _ (h.live j _ hj).2
    have hnot : σ.fresh ∉ (g i).own ∪ (g i).lent := fun hm => Nat.lt_irrefl _ (h.usable hm).2
    refine ⟨Function.update g i { (g i) with own := insert σ.fresh (g i).own }, rank, ?_⟩
    have gown : ∀ j a, a ∈ (Function.update g i { (g i) with own := insert σ.fresh (g i).own } j).own ↔
        (a ∈ (g j).own ∨ (j = i ∧ a = σ.fresh)) := by
      intro j a
      by_cases hj : j = i
      · subst hj; simp [or_comm]
      · simp [Function.update_of_ne hj, hj]
    have glent : ∀ j, (Function.update g i { (g i) with own := insert σ.fresh (g i).own } j).lent = (g j).lent := by
      intro j
      by_cases hj : j = i
      · subst hj; simp
      · simp [Function.update_of_ne hj]
    have gkids : ∀ j, (Function.update g i { (g i) with own := insert σ.fresh (g i).own } j).kids = (g j).kids := by
      intro j
      by_cases hj : j = i
      · subst hj; simp
      · simp [Function.update_of_ne hj]
    constructor
    · intro j q hq
      rcases getElem?_set_cases hq with ⟨rfl, rfl⟩ | ⟨hj, hq⟩
      · simpa using hn _ hnot
      · rw [Function.update_of_ne hj]; exact h.safe j q hq
    · intro j a ha
      rcases (gown j a).1 ha with ha | ⟨_, rfl⟩
      · exact ⟨.inl (h.live j a ha).1, Nat.lt_succ_of_lt (h.live j a ha).2⟩
      · exact ⟨.inr rfl, Nat.lt_succ_self _⟩
    · intro j j' a ha ha'
      rcases (gown j a).1 ha with h1 | ⟨h1, h2⟩
      · rcases (gown j' a).1 ha' with h3 | ⟨_, h4⟩
        · exact h.apart j j' a h1 h3
        · exact absurd (h4 ▸ h1) (hfresh j)
      · rcases (gown j' a).1 ha' with h3 | ⟨h3, _⟩
        · exact absurd (h2 ▸ h3) (hfresh j')
        · exact h1.trans h3.symm
    · intro j a ha
      rw [glent] at ha
      obtain ⟨j', B, hm, hb⟩ := h.lent j a ha
      exact ⟨j', B, by rw [gkids]; exact hm, hb⟩
    · intro j e he
      rw [gkids] at he
      obtain ⟨h1, h2, h3, h4⟩ := h.kids j e he
      refine ⟨fun a ha => ?_, h2, by simpa using h3, by simpa using h4⟩
      rcases h1 ha with ha | ha
      · exact .inl ((gown j a).2 (.inl ha))
      · exact .inr (by rw [glent]; exact ha)
    · intro j; rw [gkids]; exact h.nodup j
    · intro j j' k hk hk'
      rw [gkids] at hk hk'
      exact h.single j j' k hk hk'
    · intro j q hq hj
      have : (∃ r, q = .done r) ∨ ∃ k B, (j, B) ∈ (g k).kids := by
        rcases getElem?_set_cases hq with ⟨rfl, rfl⟩ | ⟨_, hq⟩
        · exact .inr ((h.awaited _ _ hi hj).resolve_left fun ⟨r, hr⟩ => Prog.noConfusion hr)
        · exact h.awaited j q hq hj
      refine this.imp id fun ⟨k, B, hk⟩ => ⟨k, B, by rw [gkids]; exact hk⟩
    · intro a ha
      rcases ha with ha | rfl
      · obtain ⟨j, hj, ha⟩ := h.owned a ha
        exact ⟨j, by simpa using hj, (gown j a).2 (.inl ha)⟩
      · exact ⟨i, by simpa using (List.getElem?_eq_some_iff.1 hi).1, (gown i _).2 (.inr ⟨rfl, rfl⟩)⟩
  | @free i a next hi =>
    have hsafe := h.safe i _ hi
    obtain ⟨ha, hk, hn⟩ := hsafe.free_inv
    have hlent : ∀ j, a ∉ (g j).lent := by
      intro j hj
      obtain ⟨o, ho, e, he, hae⟩ := h.owner _ j rfl a hj
      have := h.apart o i a ho ha
      subst this
      exact hk e he hae
    refine ⟨Function.update g i { (g i) with own := (g i).own \ {a} }, rank, ?_⟩
    have gown : ∀ j b, b ∈ (Function.update g i { (g i) with own := (g i).own \ {a} } j).own ↔ (b ∈ (g j).own ∧ b ≠ a) := by
      intro j b
      by_cases hj : j = i
      · subst hj; simp
      · rw [Function.update_of_ne hj]
        refine ⟨fun hb => ⟨hb, ?_⟩, fun hb => hb.1⟩
        rintro rfl
        exact hj (h.apart j i b hb ha)
    have glent : ∀ j, (Function.update g i { (g i) with own := (g i).own \ {a} } j).lent = (g j).lent := by
      intro j
      by_cases hj : j = i
      · subst hj; simp
      · simp [Function.update_of_ne hj]
    have gkids : ∀ j, (Function.update g i { (g i) with own := (g i).own \ {a} } j).kids = (g j).kids := by
      intro j
      by_cases hj : j = i
      · subst hj; simp
      · simp [Function.update_of_ne hj]
    constructor
    · intro j q hq
      rcases getElem?_set_cases hq with ⟨rfl, rfl⟩ | ⟨hj, hq⟩
      · simpa using hn
      · rw [Function.update_of_ne hj]; exact h.safe j q hq
    · intro j b hb
      obtain ⟨hb, hne⟩ := (gown j b).1 hb
      exact ⟨⟨(h.live j b hb).1, hne⟩, (h.live j b hb).2⟩
    · intro j j' b hb hb'
      exact h.apart j j' b ((gown j b).1 hb).1 ((gown j' b).1 hb').1
    · intro j b hb
      rw [glent] at hb
      obtain ⟨j', B, hm, hb'⟩ := h.lent j b hb
      exact ⟨j', B, by rw [gkids]; exact hm, hb'⟩
    · intro j e he
      rw [gkids] at he
      obtain ⟨h1, h2, h3, h4⟩ := h.kids j e he
      refine ⟨fun b hb => ?_, h2, by simpa using h3, by simpa using h4⟩
      rcases h1 hb with hb' | hb'
      · refine .inl ((gown j b).2 ⟨hb', ?_⟩)
        rintro rfl
        have := h.apart j i b hb' ha
        subst this
        exact hk e he hb
      · exact .inr (by rw [glent]; exact hb')
    · intro j; rw [gkids]; exact h.nodup j
    · intro j j' k hk hk'
      rw [gkids] at hk hk'
      exact h.single j j' k hk hk'
    · intro j q hq hj
      have : (∃ r, q = .done r) ∨ ∃ k B, (j, B) ∈ (g k).kids := by
        rcases getElem?_set_cases hq with ⟨rfl, rfl⟩ | ⟨_, hq⟩
        · exact .inr ((h.awaited _ _ hi hj).resolve_left fun ⟨r, hr⟩ => Prog.noConfusion hr)
        · exact h.awaited j q hq hj
      refine this.imp id fun ⟨k, B, hk⟩ => ⟨k, B, by rw [gkids]; exact hk⟩
    · intro b hb
      obtain ⟨j, hj, hbo⟩ := h.owned b hb.1
      exact ⟨j, by simpa using hj, (gown j b).2 ⟨hbo, hb.2⟩⟩
  | @use i u as next hi =>
    have hsafe := h.safe i _ hi
    exact ⟨g, rank, h.go hi (fun r => Prog.noConfusion) hsafe.use_inv.2⟩
  | @choose i next b hi =>
    have hsafe := h.safe i _ hi
    exact ⟨g, rank, h.go hi (fun r => Prog.noConfusion) (hsafe.choose_inv b)⟩
  | @join i j next r hi hj =>
    have hsafe := h.safe i _ hi
    have hdone := h.safe j _ hj
    obtain ⟨B, rest, hp, hn⟩ := hsafe.join_inv
    obtain ⟨hr, hnil, hempty⟩ := hdone.done_inv
    have hjm : (j, B) ∈ (g i).kids := hp.mem_iff.2 List.mem_cons_self
    have hij : i ≠ j := by
      rintro rfl
      exact Nat.lt_irrefl _ (h.kids _ _ hjm).2.1
    have hnd := (hp.map (·.1)).nodup_iff.1 (h.nodup i)
    rw [List.map_cons, List.nodup_cons] at hnd
    have hjrest : j ∉ rest.map (·.1) := hnd.1
    let g' : Nat → Ghost := Function.update (Function.update g i { (g i) with kids := rest }) j { (g j) with lent := ∅ }
    have gj : g' j = { (g j) with lent := ∅ } := by simp [g']
    have gi : g' i = { (g i) with kids := rest } := by simp [g', Function.update_of_ne hij]
    have go : ∀ k, k ≠ i → k ≠ j → g' k = g k := by
      intro k h1 h2
      simp [g', Function.update_of_ne h1, Function.update_of_ne h2]
    have gown : ∀ k, (g' k).own = (g k).own := by
      intro k
      by_cases h1 : k = j
      · subst h1; rw [gj]
      · by_cases h2 : k = i
        · subst h2; rw [gi]
        · rw [go k h2 h1]
    have gkids : ∀ k, ∀ e ∈ (g' k).kids, e ∈ (g k).kids ∧ e.1 ≠ j := by
      intro k e he
      by_cases h2 : k = i
      · subst h2
        rw [gi] at he
        refine ⟨hp.mem_iff.2 (List.mem_cons_of_mem _ he), ?_⟩
        rintro h'
        exact hjrest (List.mem_map.2 ⟨e, he, h'⟩)
      · have hek : e ∈ (g k).kids := by
          by_cases h1 : k = j
          · subst h1; rw [gj] at he; exact he
          · rw [go k h2 h1] at he; exact he
        refine ⟨hek, ?_⟩
        intro h'
        exact h2 (h.single k i j (List.mem_map.2 ⟨e, hek, h'⟩) (List.mem_map.2 ⟨_, hjm, rfl⟩))
    have gkids' : ∀ k, ∀ e ∈ (g k).kids, e.1 ≠ j → e ∈ (g' k).kids := by
      intro k e he hne
      by_cases h2 : k = i
      · subst h2
        rw [gi]
        rcases List.mem_cons.1 (hp.mem_iff.1 he) with rfl | he
        · exact absurd rfl hne
        · exact he
      · by_cases h1 : k = j
        · subst h1; rw [gj]; exact he
        · rw [go k h2 h1]; exact he
    have glent : ∀ k, k ≠ j → (g' k).lent = (g k).lent := by
      intro k h1
      by_cases h2 : k = i
      · subst h2; rw [gi]
      · rw [go k h2 h1]
    refine ⟨g', rank, ?_⟩
    constructor
    · intro k q hq
      rcases getElem?_set_cases hq with ⟨rfl, rfl⟩ | ⟨hk, hq⟩
      · rw [gi]; exact hn r hr
      · by_cases h1 : k = j
        · subst h1
          rw [hj] at hq
          cases hq
          rw [gj, hnil, hempty]
          exact .done hr
        · rw [go k hk h1]; exact h.safe k q hq
    · intro k a ha; rw [gown] at ha; exact h.live k a ha
    · intro k k' a ha ha'; rw [gown] at ha ha'; exact h.apart k k' a ha ha'
    · intro k a ha
      by_cases h1 : k = j
      · subst h1; rw [gj] at ha; cases ha
      · rw [glent k h1] at ha
        obtain ⟨o, B', ho, hb⟩ := h.lent k a ha
        exact ⟨o, B', gkids' o _ ho h1, hb⟩
    · intro k e he
      have hek := (gkids k e he).1
      obtain ⟨h1, h2, h3, h4⟩ := h.kids k e hek
      refine ⟨fun a ha => ?_, h2, by simpa using h3, by simpa using h4⟩
      have hkj : k ≠ j := by
        rintro rfl
        rw [hnil] at hek
        cases hek
      rw [gown, glent k hkj]
      exact h1 ha
    · intro k
      by_cases h2 : k = i
      · subst h2; rw [gi]; exact hnd.2
      · have : (g' k).kids = (g k).kids := by
          by_cases h1 : k = j
          · subst h1; rw [gj]
          · rw [go k h2 h1]
        rw [this]
        exact h.nodup k
    · intro k k' l hl hl'
      obtain ⟨e, he, rfl⟩ := List.mem_map.1 hl
      obtain ⟨e', he', hee⟩ := List.mem_map.1 hl'
      exact h.single k k' e.1 (List.mem_map.2 ⟨e, (gkids k e he).1, rfl⟩) (List.mem_map.2 ⟨e', (gkids k' e' he').1, hee⟩)
    · intro k q hq hk
      by_cases h1 : k = j
      · subst h1
        rcases getElem?_set_cases hq with ⟨h2, _⟩ | ⟨_, hq⟩
        · exact absurd h2.symm hij
        · rw [hj] at hq
          cases hq
          exact .inl ⟨r, rfl⟩
      · have : (∃ r, q = .done r) ∨ ∃ o B, (k, B) ∈ (g o).kids := by
          rcases getElem?_set_cases hq with ⟨rfl, rfl⟩ | ⟨_, hq⟩
          · exact .inr ((h.awaited _ _ hi hk).resolve_left fun ⟨r, hr⟩ => Prog.noConfusion hr)
          · exact h.awaited k q hq hk
        exact this.imp id fun ⟨o, B', ho⟩ => ⟨o, B', gkids' o _ ho h1⟩
    · intro a ha
      obtain ⟨k, hk, hka⟩ := h.owned a ha
      exact ⟨k, by simpa using hk, by rw [gown]; exact hka⟩
  | @fork i child next hi =>
    have hsafe := h.safe i _ hi
    have hil : i < σ.threads.length := (List.getElem?_eq_some_iff.1 hi).1
    obtain ⟨moved, rest, B, hp, hB, hm, hc, hn⟩ := hsafe.fork_inv
    let n := σ.threads.length
    have hin : i ≠ n := Nat.ne_of_lt hil
    have hkn : ∀ k, ∀ e ∈ (g k).kids, e.1 ≠ n ∧ k ≠ n := by
      intro k e he
      obtain ⟨_, _, h3, h4⟩ := h.kids k e he
      exact ⟨Nat.ne_of_lt h3, Nat.ne_of_lt h4⟩
    have hnd := (hp.map (·.1)).nodup_iff.1 (h.nodup i)
    rw [List.map_append, List.nodup_append] at hnd
    obtain ⟨hnd1, hnd2, hnd3⟩ := hnd
    let g' : Nat → Ghost := Function.update (Function.update g i { (g i) with kids := (n, B) :: rest }) n ⟨∅, B, moved⟩
    have gn : g' n = ⟨∅, B, moved⟩ := by simp [g']
    have gi : g' i = { (g i) with kids := (n, B) :: rest } := by simp [g', Function.update_of_ne hin]
    have go : ∀ k, k ≠ i → k ≠ n → g' k = g k := by
      intro k h1 h2
      simp [g', Function.update_of_ne h1, Function.update_of_ne h2]
    have gown : ∀ k, ∀ a ∈ (g' k).own, a ∈ (g k).own := by
      intro k a ha
      by_cases h1 : k = n
      · subst h1; rw [gn] at ha; cases ha
      · by_cases h2 : k = i
        · subst h2; rw [gi] at ha; exact ha
        · rw [go k h2 h1] at ha; exact ha
    have gown' : ∀ k, k ≠ n → (g' k).own = (g k).own := by
      intro k h1
      by_cases h2 : k = i
      · subst h2; rw [gi]
      · rw [go k h2 h1]
    have glent : ∀ k, k ≠ n → (g' k).lent = (g k).lent := by
      intro k h1
      by_cases h2 : k = i
      · subst h2; rw [gi]
      · rw [go k h2 h1]
    -- where the threads to wait for are now
    have gkids : ∀ k, ∀ e ∈ (g' k).kids, (k = i ∧ e = (n, B)) ∨ (k = n ∧ e ∈ moved) ∨ (k = i ∧ e ∈ rest) ∨
        (k ≠ i ∧ k ≠ n ∧ e ∈ (g k).kids) := by
      intro k e he
      by_cases h1 : k = n
      · subst h1; rw [gn] at he; exact .inr (.inl ⟨rfl, he⟩)
      · by_cases h2 : k = i
        · subst h2
          rw [gi] at he
          rcases List.mem_cons.1 he with rfl | he
          · exact .inl ⟨rfl, rfl⟩
          · exact .inr (.inr (.inl ⟨rfl, he⟩))
        · rw [go k h2 h1] at he
          exact .inr (.inr (.inr ⟨h2, h1, he⟩))
    have hmem_moved : ∀ e ∈ moved, e ∈ (g i).kids := fun e he => hp.mem_iff.2 (List.mem_append_left _ he)
    have hmem_rest : ∀ e ∈ rest, e ∈ (g i).kids := fun e he => hp.mem_iff.2 (List.mem_append_right _ he)
    have hnolent : ∀ a, a ∉ (g n).lent := by
      intro a ha
      obtain ⟨o, B', ho, _⟩ := h.lent n a ha
      exact (hkn o _ ho).1 rfl
    refine ⟨g', fun k => if k = n then 2 * rank i + 1 else 2 * rank k, ?_⟩
    constructor
    · intro k q hq
      change (σ.threads.set i (next n) ++ [child])[k]? = some q at hq
      rw [List.getElem?_append] at hq
      split at hq
      · rename_i hlt
        rw [List.length_set] at hlt
        have hk : k ≠ n := Nat.ne_of_lt hlt
        rcases getElem?_set_cases hq with ⟨rfl, rfl⟩ | ⟨hki, hq⟩
        · rw [gi]; exact hn n
        · rw [go k hki hk]; exact h.safe k q hq
      · rename_i hge
        rw [List.length_set] at hge hq
        have : k = n := by
          have := (List.getElem?_eq_some_iff.1 hq).1
          simp at this
          show k = σ.threads.length
          omega
        subst this
        simp [n] at hq
        rw [gn]
        exact hq ▸ hc
    · intro k a ha; exact h.live k a (gown k a ha)
    · intro k k' a ha ha'; exact h.apart k k' a (gown k a ha) (gown k' a ha')
    · intro k a ha
      by_cases h1 : k = n
      · subst h1
        rw [gn] at ha
        exact ⟨i, B, by rw [gi]; exact List.mem_cons_self, ha⟩
      · rw [glent k h1] at ha
        obtain ⟨o, B', ho, hb⟩ := h.lent k a ha
        by_cases h2 : o = i
        · subst h2
          rcases List.mem_append.1 (hp.mem_iff.1 ho) with hmv | hrs
          · exact ⟨n, B', by rw [gn]; exact hmv, hb⟩
          · exact ⟨o, B', by rw [gi]; exact List.mem_cons_of_mem _ hrs, hb⟩
        · exact ⟨o, B', by rw [go o h2 (hkn o _ ho).2]; exact ho, hb⟩
    · intro k e he
      have hlen : ∀ m, m < σ.threads.length → m < (σ.threads.set i (next n) ++ [child]).length := by
        intro m hm'; simp; omega
      have hnlen : n < (σ.threads.set i (next n) ++ [child]).length := by simp [n]
      rcases gkids k e he with ⟨rfl, rfl⟩ | ⟨rfl, hmv⟩ | ⟨rfl, hrs⟩ | ⟨h1, h2, hek⟩
      · refine ⟨?_, ?_, hnlen, hlen _ hil⟩
        · rw [gown' _ hin, glent _ hin]; exact hB
        · simp [hin]
      · obtain ⟨_, hr, h3, _⟩ := h.kids i e (hmem_moved e hmv)
        refine ⟨?_, ?_, hlen _ h3, hnlen⟩
        · rw [gn]; exact fun a ha => .inr (hm e hmv ha)
        · have : e.1 ≠ n := (hkn i e (hmem_moved e hmv)).1
          simp only [if_true, if_neg this]
          omega
      · obtain ⟨h1, hr, h3, h4⟩ := h.kids k e (hmem_rest e hrs)
        refine ⟨?_, ?_, hlen _ h3, hlen _ h4⟩
        · rw [gown' _ hin, glent _ hin]; exact h1
        · have : e.1 ≠ n := (hkn k e (hmem_rest e hrs)).1
          simp only [if_neg this, if_neg hin]
          omega
      · obtain ⟨h1', hr, h3, h4⟩ := h.kids k e hek
        refine ⟨?_, ?_, hlen _ h3, hlen _ h4⟩
        · rw [gown' _ h2, glent _ h2]; exact h1'
        · have : e.1 ≠ n := (hkn k e hek).1
          simp only [if_neg this, if_neg h2]
          omega
    · intro k
      by_cases h1 : k = n
      · subst h1; rw [gn]; exact hnd1
      · by_cases h2 : k = i
        · subst h2
          rw [gi]
          simp only [List.map_cons, List.nodup_cons]
          refine ⟨fun hmem => ?_, hnd2⟩
          obtain ⟨e, he, hen⟩ := List.mem_map.1 hmem
          exact (hkn k e (hmem_rest e he)).1 hen
        · rw [go k h2 h1]; exact h.nodup k
    · intro k k' l hl hl'
      obtain ⟨e, he, rfl⟩ := List.mem_map.1 hl
      obtain ⟨e', he', hee⟩ := List.mem_map.1 hl'
      have hcross : ∀ a ∈ moved, ∀ b ∈ rest, a.1 ≠ b.1 := fun a ha b hb =>
        hnd3 _ (List.mem_map.2 ⟨a, ha, rfl⟩) _ (List.mem_map.2 ⟨b, hb, rfl⟩)
      have hother : ∀ {k : Nat} {a b : Nat × Set Addr}, a ∈ (g i).kids → k ≠ i → b ∈ (g k).kids → b.1 = a.1 → False := by
        intro k a b ha hk hb hab
        exact hk (h.single k i b.1 (List.mem_map.2 ⟨b, hb, rfl⟩) (List.mem_map.2 ⟨a, ha, hab.symm⟩))
      rcases gkids k e he with ⟨rfl, rfl⟩ | ⟨rfl, hmv⟩ | ⟨rfl, hrs⟩ | ⟨h1, h2, hek⟩ <;>
      rcases gkids k' e' he' with ⟨rfl, rfl⟩ | ⟨rfl, hmv'⟩ | ⟨rfl, hrs'⟩ | ⟨h1', h2', hek'⟩
      · rfl
      · exact absurd hee (hkn _ e' (hmem_moved e' hmv')).1
      · rfl
      · exact absurd hee (hkn _ e' hek').1
      · exact absurd hee.symm (hkn _ e (hmem_moved e hmv)).1
      · rfl
      · exact absurd hee.symm (hcross e hmv e' hrs')
      · exact (hother (hmem_moved e hmv) h1' hek' hee).elim
      · rfl
      · exact absurd hee (hcross e' hmv' e hrs)
      · rfl
      · exact (hother (hmem_rest e hrs) h1' hek' hee).elim
      · exact absurd hee.symm (hkn _ e hek).1
      · exact (hother (hmem_moved e' hmv') h1 hek hee.symm).elim
      · exact (hother (hmem_rest e' hrs') h1 hek hee.symm).elim
      · exact h.single k k' e.1 (List.mem_map.2 ⟨e, hek, rfl⟩) (List.mem_map.2 ⟨e', hek', hee⟩)
    · intro k q hq hk
      change (σ.threads.set i (next n) ++ [child])[k]? = some q at hq
      rw [List.getElem?_append] at hq
      split at hq
      · rename_i hlt
        rw [List.length_set] at hlt
        have hkn' : k ≠ n := Nat.ne_of_lt hlt
        have : (∃ r, q = .done r) ∨ ∃ o B, (k, B) ∈ (g o).kids := by
          rcases getElem?_set_cases hq with ⟨rfl, rfl⟩ | ⟨_, hq⟩
          · exact .inr ((h.awaited _ _ hi hk).resolve_left fun ⟨r, hr⟩ => Prog.noConfusion hr)
          · exact h.awaited k q hq hk
        refine this.imp id fun ⟨o, B', ho⟩ => ?_
        by_cases h2 : o = i
        · subst h2
          rcases List.mem_append.1 (hp.mem_iff.1 ho) with hmv | hrs
          · exact ⟨n, B', by rw [gn]; exact hmv⟩
          · exact ⟨o, B', by rw [gi]; exact List.mem_cons_of_mem _ hrs⟩
        · exact ⟨o, B', by rw [go o h2 (hkn o _ ho).2]; exact ho⟩
      · rename_i hge
        rw [List.length_set] at hge hq
        have : k = n := by
          have := (List.getElem?_eq_some_iff.1 hq).1
          simp at this
          show k = σ.threads.length
          omega
        subst this
        exact .inr ⟨i, B, by rw [gi]; exact List.mem_cons_self⟩
    · intro a ha
      obtain ⟨k, hk, hka⟩ := h.owned a ha
      exact ⟨k, by simp; omega, by rw [gown' k (Nat.ne_of_lt hk)]; exact hka⟩

/-- In every state of a safe program, the invariant holds. -/
theorem Safe.inv {p : Prog} (h : Safe G R ∅ ∅ [] p) {σ : State} (hr : Reachable p σ) : ∃ g rank, Inv G R σ g rank := by
  induction hr with
  | start =>
    refine ⟨fun _ => ⟨∅, ∅, []⟩, fun _ => 0, ?_⟩
    constructor
    · intro i q hq
      cases i with
      | zero => simp [State.start] at hq; exact hq ▸ h
      | succ i => simp [State.start] at hq
    · intro i a ha; cases ha
    · intro i j a ha; cases ha
    · intro i a ha; cases ha
    · intro i e he; cases he
    · intro i; simp
    · intro i j k hk; cases hk
    · intro i q hq hi
      cases i with
      | zero => exact absurd rfl hi
      | succ i => simp [State.start] at hq
    · intro a ha; exact ha.elim
  | step _ hs ih =>
    obtain ⟨g, rank, h⟩ := ih
    exact h.step hs

/-- What a safe program uses for the purposes `G` is alive. -/
theorem Safe.uses {p : Prog} (h : Safe G R ∅ ∅ [] p) {σ : State} (hr : Reachable p σ) {i : Nat} {u : Use} {as : List Addr} {next : Prog}
    (hi : σ.threads[i]? = some (.use u as next)) (hu : G u) : ∀ a ∈ as, σ.live a := by
  obtain ⟨g, rank, hinv⟩ := h.inv hr
  intro a ha
  exact (hinv.usable ((hinv.safe i _ hi).use_inv.1 hu a ha)).1

/-- What it destroys is alive. -/
theorem Safe.frees {p : Prog} (h : Safe G R ∅ ∅ [] p) {σ : State} (hr : Reachable p σ) {i : Nat} {a : Addr} {next : Prog}
    (hi : σ.threads[i]? = some (.free a next)) : σ.live a := by
  obtain ⟨g, rank, hinv⟩ := h.inv hr
  exact (hinv.live i a (hinv.safe i _ hi).free_inv.1).1

/-- When the first thread has ended, so have the others, and nothing is alive. -/
theorem Safe.ends {p : Prog} (h : Safe G R ∅ ∅ [] p) {σ : State} (hr : Reachable p σ) {r : Except Exc Unit}
    (h0 : σ.threads[0]? = some (.done r)) : (∀ (i : Nat) (q : Prog), σ.threads[i]? = some q → ∃ r, q = Prog.done r) ∧ ∀ a, ¬σ.live a := by
  obtain ⟨g, rank, hinv⟩ := h.inv hr
  have hall : ∀ (n i : Nat) (q : Prog), rank i = n → σ.threads[i]? = some q → ∃ r, q = Prog.done r := by
    intro n
    induction n using Nat.strongRecOn with
    | _ n ih =>
      intro i q hn hq
      by_cases hi : i = 0
      · subst hi
        rw [h0] at hq
        cases hq
        exact ⟨r, rfl⟩
      · rcases hinv.awaited i q hq hi with hd | ⟨j, B, hj⟩
        · exact hd
        · obtain ⟨_, hlt, _, hjl⟩ := hinv.kids j _ hj
          obtain ⟨r', hr'⟩ := ih (rank j) (by simpa [hn] using hlt) j _ rfl (List.getElem?_eq_getElem hjl)
          have hs := hinv.safe j _ (List.getElem?_eq_getElem hjl)
          rw [hr'] at hs
          rw [hs.done_inv.2.1] at hj
          cases hj
  refine ⟨fun i q hq => hall _ i q rfl hq, fun a ha => ?_⟩
  obtain ⟨i, hi, hai⟩ := hinv.owned a ha
  obtain ⟨r', hr'⟩ := hall _ i _ rfl (List.getElem?_eq_getElem hi)
  have hs := hinv.safe i _ (List.getElem?_eq_getElem hi)
  rw [hr'] at hs
  rw [hs.done_inv.2.2] at hai
  exact hai

end Verif.Life
