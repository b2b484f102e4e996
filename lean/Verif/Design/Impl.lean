import Verif.Design.Paths
/-
A concrete pair of networkx functions that meets `NxSpec`, so that the theorems about the designer
are not vacuous and can be run on examples. Not part of the modelled code: networkx uses other
algorithms.
-/
set_option autoImplicit false
namespace ML
open Spec

/-- All ways to insert an element. -/
def insertions {α : Type} (x : α) : List α → List (List α)
  | [] => [[x]]
  | y :: ys => (x :: y :: ys) :: (insertions x ys).map (y :: ·)

/-- All rearrangements of a list. -/
def rearrangements {α : Type} : List α → List (List α)
  | [] => [[]]
  | x :: xs => (rearrangements xs).flatMap (insertions x)

theorem mem_insertions {α : Type} (x : α) (a b : List α) : a ++ x :: b ∈ insertions x (a ++ b) := by
  induction a with
  | nil => cases b <;> simp [insertions]
  | cons y ys ih =>
    simp only [List.cons_append, insertions, List.mem_cons, List.mem_map]
    exact .inr ⟨_, ih, rfl⟩

theorem insertions_perm {α : Type} {x : α} {l m : List α} (h : m ∈ insertions x l) :
    m.Perm (x :: l) := by
  induction l generalizing m with
  | nil => simp only [insertions, List.mem_singleton] at h; rw [h]
  | cons y ys ih =>
    simp only [insertions, List.mem_cons, List.mem_map] at h
    rcases h with rfl | ⟨n, hn, rfl⟩
    · exact .refl _
    · exact ((ih hn).cons y).trans (.swap x y ys)

theorem mem_rearrangements {α : Type} {l m : List α} : m ∈ rearrangements l ↔ m.Perm l := by
  induction l generalizing m with
  | nil => simp [rearrangements]
  | cons x xs ih =>
    simp only [rearrangements, List.mem_flatMap]
    constructor
    · rintro ⟨n, hn, hm⟩
      exact (insertions_perm hm).trans ((ih.mp hn).cons x)
    · intro h
      obtain ⟨a, b, rfl⟩ := List.append_of_mem (h.mem_iff.mpr (List.mem_cons_self ..))
      refine ⟨a ++ b, ih.mpr ?_, mem_insertions x a b⟩
      exact (List.perm_cons x).mp (List.perm_middle.symm.trans h)

/-- Topological sorting by trial. -/
def topoImpl (edges : List Pair) : Option (List Pair) :=
  (rearrangements edges).find? (fun l =>
    decide (l.Pairwise (fun p q => q.2 ≠ p.1) ∧ ∀ p ∈ l, p.2 ≠ p.1))

/-- All walks with at most `n` edges. -/
def walksUpTo (g : Graph) : Nat → String → String → List (List String)
  | 0, a, b => if a = b then [[a]] else []
  | n + 1, a, b => (if a = b then [[a]] else []) ++
    (g.edges.filter (fun e => decide (e.1.1 = a))).flatMap (fun e =>
      (walksUpTo g n e.1.2 b).map (a :: ·))

/-- The lightest walk. -/
def spImpl (g : Graph) (a b : String) : Option (List String) :=
  (firstBest ((walksUpTo g g.nodes.length a b).map (fun p => (p, pathWeight g p)))).map (·.1)

/-- A concrete networkx. -/
def nxImpl : Nx := ⟨topoImpl, spImpl⟩

theorem walksUpTo_sound {g : Graph} {n : Nat} {a b : String} {p : List String}
    (h : p ∈ walksUpTo g n a b) : Walk g a b p := by
  induction n generalizing a p with
  | zero =>
    simp only [walksUpTo] at h
    split at h
    · rename_i e; subst e
      simp only [List.mem_singleton] at h
      subst h; exact .single a
    · cases h
  | succ n ih =>
    simp only [walksUpTo, List.mem_append] at h
    rcases h with h | h
    · split at h
      · rename_i e; subst e
        simp only [List.mem_singleton] at h
        subst h; exact .single a
      · cases h
    · obtain ⟨e, he, h⟩ := List.mem_flatMap.mp h
      obtain ⟨q, hq, rfl⟩ := List.mem_map.mp h
      rw [List.mem_filter, decide_eq_true_eq] at he
      exact .cons (b := e.1.2) (List.mem_map.mpr ⟨e, he.1, by rw [← he.2]⟩) (ih hq)

theorem walksUpTo_complete {g : Graph} {a b : String} {p : List String} (h : Walk g a b p) :
    ∀ n, p.length ≤ n + 1 → p ∈ walksUpTo g n a b := by
  induction h with
  | single a =>
    intro n _
    cases n <;> simp [walksUpTo]
  | @cons a b c p he h' ih =>
    intro n hn
    cases n with
    | zero =>
      obtain ⟨t, rfl⟩ := h'.head
      simp at hn
    | succ n =>
      obtain ⟨e, hem, hk⟩ := List.mem_map.mp he
      simp only [walksUpTo, List.mem_append]
      refine .inr (List.mem_flatMap.mpr ⟨e, ?_, ?_⟩)
      · rw [List.mem_filter, decide_eq_true_eq]
        exact ⟨hem, by rw [hk]⟩
      · rw [hk]
        exact List.mem_map.mpr ⟨p, ih n (by simp only [List.length_cons] at hn; omega), rfl⟩

theorem pathWeight_cons_le (g : Graph) (a : String) (p : List String) :
    pathWeight g p ≤ pathWeight g (a :: p) := by
  cases p with
  | nil => simp [pathWeight]
  | cons b t => simp only [pathWeight]; omega

theorem pathWeight_cons_mono (g : Graph) (a b : String) {s t : List String}
    (h : pathWeight g (b :: s) ≤ pathWeight g (b :: t)) :
    pathWeight g (a :: b :: s) ≤ pathWeight g (a :: b :: t) := by
  simp only [pathWeight] at *
  omega

theorem Spec.Walk.from_mem {g : Graph} {a b : String} {p : List String} (h : Walk g a b p)
    {x : String} (hx : x ∈ p) :
    ∃ q, Walk g x b q ∧ pathWeight g q ≤ pathWeight g p ∧ q.length ≤ p.length := by
  induction h with
  | single a =>
    simp only [List.mem_singleton] at hx
    subst hx
    exact ⟨_, .single _, Nat.le_refl _, Nat.le_refl _⟩
  | @cons a b c p he h' ih =>
    rcases List.mem_cons.mp hx with rfl | hx
    · exact ⟨_, .cons he h', Nat.le_refl _, Nat.le_refl _⟩
    · obtain ⟨q, h1, h2, h3⟩ := ih hx
      exact ⟨q, h1, Nat.le_trans h2 (pathWeight_cons_le g a p), by simp only [List.length_cons]; omega⟩

theorem Spec.Walk.cut {g : Graph} {a b : String} {p : List String} (h : Walk g a b p)
    (hn : ¬ p.Nodup) : ∃ q, Walk g a b q ∧ pathWeight g q ≤ pathWeight g p ∧ q.length < p.length := by
  induction h with
  | single a => simp at hn
  | @cons a b c p he h' ih =>
    by_cases hp : p.Nodup
    · have ha : a ∈ p := by
        by_cases ha : a ∈ p
        · exact ha
        · exact absurd (List.nodup_cons.mpr ⟨ha, hp⟩) hn
      obtain ⟨q, h1, h2, h3⟩ := h'.from_mem ha
      exact ⟨q, h1, Nat.le_trans h2 (pathWeight_cons_le g a p), by simp only [List.length_cons]; omega⟩
    · obtain ⟨q, h1, h2, h3⟩ := ih hp
      refine ⟨a :: q, .cons he h1, ?_, by simp only [List.length_cons]; omega⟩
      obtain ⟨s, rfl⟩ := h1.head
      obtain ⟨t, rfl⟩ := h'.head
      exact pathWeight_cons_mono g a b h2

theorem Spec.Walk.simple {g : Graph} {a b : String} :
    ∀ (n : Nat) (p : List String), p.length ≤ n → Walk g a b p →
      ∃ q, Walk g a b q ∧ pathWeight g q ≤ pathWeight g p ∧ q.Nodup := by
  intro n
  induction n with
  | zero =>
    intro p hp h
    obtain ⟨t, rfl⟩ := h.head
    simp at hp
  | succ n ih =>
    intro p hp h
    by_cases hn : p.Nodup
    · exact ⟨p, h, Nat.le_refl _, hn⟩
    · obtain ⟨q, h1, h2, h3⟩ := h.cut hn
      obtain ⟨r, h4, h5, h6⟩ := ih q (by omega) h1
      exact ⟨r, h4, Nat.le_trans h5 h2, h6⟩

theorem Spec.Walk.nodes {g : Graph} (hwf : WF g) {a b : String} {p : List String} (h : Walk g a b p)
    (ha : a ∈ g.nodes) : ∀ x ∈ p, x ∈ g.nodes := by
  induction h with
  | single a => intro x hx; simp only [List.mem_singleton] at hx; rw [hx]; exact ha
  | cons he h' ih =>
    intro x hx
    rcases List.mem_cons.mp hx with rfl | hx
    · exact ha
    · exact ih (hwf.dst _ _ he) x hx

theorem nxImpl_spec : NxSpec nxImpl := by
  refine ⟨?_, ?_, ?_, ?_⟩
  · intro edges l h
    have h1 := List.mem_of_find?_eq_some h
    have h2 := List.find?_some h
    exact ⟨mem_rearrangements.mp h1, (decide_eq_true_eq.mp h2).1, (decide_eq_true_eq.mp h2).2⟩
  · intro edges h l hl
    have := List.find?_eq_none.mp h l (mem_rearrangements.mpr hl.1)
    exact this (decide_eq_true_eq.mpr ⟨hl.2.1, hl.2.2⟩)
  · intro g a b p hwf ha h
    simp only [nxImpl, spImpl, Option.map_eq_some_iff] at h
    obtain ⟨⟨p', w⟩, h, rfl⟩ := h
    obtain ⟨h1, h2⟩ := firstBest_some h
    obtain ⟨x, hx, e⟩ := List.mem_map.mp h1
    simp only [Prod.mk.injEq] at e
    obtain ⟨rfl, rfl⟩ := e
    refine ⟨walksUpTo_sound hx, ?_⟩
    intro q hq
    obtain ⟨r, hr, hle, hn⟩ := Walk.simple q.length q (Nat.le_refl _) hq
    have hlen := nodup_length_le hn (hr.nodes hwf ha)
    have := h2 (r, pathWeight g r) (List.mem_map.mpr
      ⟨r, walksUpTo_complete hr g.nodes.length (by omega), rfl⟩)
    exact Nat.le_trans this hle
  · intro g a b hwf ha _ h hr
    simp only [nxImpl, spImpl, Option.map_eq_none_iff, firstBest_none, List.map_eq_nil_iff] at h
    obtain ⟨p, hp⟩ := hr.walk
    obtain ⟨r, hr, hle, hn⟩ := Walk.simple p.length p (Nat.le_refl _) hp
    have hlen := nodup_length_le hn (hr.nodes hwf ha)
    have := walksUpTo_complete hr g.nodes.length (by omega)
    rw [h] at this
    cases this

end ML
