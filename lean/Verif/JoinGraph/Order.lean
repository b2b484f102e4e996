import Verif.JoinGraph.Hash
import Mathlib.Data.List.Perm.Subperm
/-
Helper lemmas for C16: the order networkx returns the components in does not matter.
-/
set_option autoImplicit false
namespace ML
open Spec

theorem nodup_eraseDups (l : List String) : l.eraseDups.Nodup := by
  suffices h : ∀ n (l : List String), l.length ≤ n → l.eraseDups.Nodup from h l.length l (Nat.le_refl _)
  intro n
  induction n with
  | zero =>
    intro l hl
    cases l with
    | nil => simp
    | cons x xs => simp at hl
  | succ n ih =>
    intro l hl
    cases l with
    | nil => simp
    | cons x xs =>
      rw [List.eraseDups_cons, List.nodup_cons]
      refine ⟨?_, ih _ (Nat.le_trans (List.length_filter_le _ _) (Nat.le_of_succ_le_succ hl))⟩
      rw [List.mem_eraseDups, List.mem_filter]
      rintro ⟨-, h⟩
      simp at h

theorem eq_of_same_members {a b : List String} (ha : a.Nodup) (hb : b.Nodup)
    (sa : a.Pairwise (· ≤ ·)) (sb : b.Pairwise (· ≤ ·)) (h : ∀ x, x ∈ a ↔ x ∈ b) : a = b :=
  List.Perm.eq_of_pairwise (fun _ _ _ _ h1 h2 => String.le_antisymm h1 h2) sa sb
    ((List.perm_ext_iff_of_nodup ha hb).mpr h)

theorem compAtLeast_total (a b : List String) : compAtLeast a b = true ∨ compAtLeast b a = true := by
  simp only [compAtLeast, Bool.or_eq_true, decide_eq_true_eq, Bool.and_eq_true]
  rcases Nat.lt_trichotomy a.length b.length with h | h | h
  · exact .inr (.inl h)
  · rcases String.le_total (b.headD "") (a.headD "") with h' | h'
    · exact .inl (.inr ⟨h, h'⟩)
    · exact .inr (.inr ⟨h.symm, h'⟩)
  · exact .inl (.inl h)

theorem compAtLeast_trans {a b c : List String} (h1 : compAtLeast a b = true)
    (h2 : compAtLeast b c = true) : compAtLeast a c = true := by
  simp only [compAtLeast, Bool.or_eq_true, decide_eq_true_eq, Bool.and_eq_true] at *
  rcases h1 with h1 | ⟨h1, h1'⟩ <;> rcases h2 with h2 | ⟨h2, h2'⟩
  · exact .inl (Nat.lt_trans h2 h1)
  · exact .inl (by omega)
  · exact .inl (by omega)
  · exact .inr ⟨h1.trans h2, String.le_trans h2' h1'⟩

theorem sorted_insertComp {x : List String} {l : List (List String)}
    (h : l.Pairwise (fun a b => compAtLeast a b = true)) :
    (insertComp x l).Pairwise (fun a b => compAtLeast a b = true) := by
  induction l with
  | nil => exact List.pairwise_singleton _ _
  | cons y ys ih =>
    rw [List.pairwise_cons] at h
    simp only [insertComp]
    split
    · rename_i hxy
      refine List.pairwise_cons.mpr ⟨?_, List.pairwise_cons.mpr h⟩
      intro z hz
      rcases List.mem_cons.mp hz with rfl | hz
      · exact hxy
      · exact compAtLeast_trans hxy (h.1 z hz)
    · rename_i hxy
      refine List.pairwise_cons.mpr ⟨?_, ih h.2⟩
      intro z hz
      rcases (mem_insertComp x z ys).mp hz with rfl | hz
      · exact (compAtLeast_total y z).resolve_right hxy
      · exact h.1 z hz

theorem sorted_sortComponents (comps : List (List String)) :
    (sortComponents comps).Pairwise (fun a b => compAtLeast a b = true) := by
  unfold sortComponents
  induction comps with
  | nil => exact .nil
  | cons c cs ih => exact sorted_insertComp ih

theorem sortComponents_nodup {g : Graph} {comps : List (List String)} (hs : IsScc g comps) :
    (sortComponents comps).Nodup := by
  rw [List.nodup_iff_pairwise_ne]
  refine (List.Pairwise.and_mem.mp (sortComponents_disjoint hs.disjoint)).imp ?_
  rintro a b ⟨ha, -, hd⟩ rfl
  obtain ⟨x, hx⟩ := List.exists_mem_of_ne_nil _ (sorted_comp hs ha).2.2.1
  exact hd x hx hx

theorem sortComponents_sub {g : Graph} {comps comps' : List (List String)} (hs : IsScc g comps)
    (hs' : IsScc g comps') {c : List String} (hc : c ∈ sortComponents comps) :
    c ∈ sortComponents comps' := by
  have h1 := sorted_comp hs hc
  obtain ⟨x, hx⟩ := List.exists_mem_of_ne_nil _ h1.2.2.1
  obtain ⟨d0, hd0, hxd0⟩ := hs'.covers x (h1.2.1 x hx)
  have hd : sortStr d0 ∈ sortComponents comps' := (mem_sortComponents _ _).mpr ⟨d0, hd0, rfl⟩
  have hxd : x ∈ sortStr d0 := (mem_sortStr _ _).mpr hxd0
  have h2 := sorted_comp hs' hd
  obtain ⟨c0, hc0, rfl⟩ := (mem_sortComponents _ _).mp hc
  have : sortStr c0 = sortStr d0 := by
    refine eq_of_same_members h1.1 h2.1 (sorted_sortStr _) (sorted_sortStr _) (fun y => ?_)
    constructor
    · intro hy
      exact (h2.2.2.2 x hxd y (h1.2.1 y hy)).mpr ((h1.2.2.2 x hx y (h1.2.1 y hy)).mp hy)
    · intro hy
      exact (h1.2.2.2 x hx y (h2.2.1 y hy)).mpr ((h2.2.2.2 x hxd y (h2.2.1 y hy)).mp hy)
  rw [this]
  exact hd

/-- The sorted components do not depend on the order networkx chose. -/
theorem sortComponents_unique {g : Graph} {comps comps' : List (List String)} (hs : IsScc g comps)
    (hs' : IsScc g comps') : sortComponents comps = sortComponents comps' := by
  refine List.Perm.eq_of_pairwise ?_ (sorted_sortComponents comps) (sorted_sortComponents comps')
    ((List.perm_ext_iff_of_nodup (sortComponents_nodup hs) (sortComponents_nodup hs')).mpr
      (fun c => ⟨sortComponents_sub hs hs', sortComponents_sub hs' hs⟩))
  intro a b ha hb h1 h2
  have hb' : b ∈ sortComponents comps := sortComponents_sub hs' hs hb
  have ca := sorted_comp hs ha
  have cb := sorted_comp hs hb'
  have hhead : a.headD "" = b.headD "" := by
    simp only [compAtLeast, Bool.or_eq_true, decide_eq_true_eq, Bool.and_eq_true] at h1 h2
    have : a.length = b.length := by omega
    rcases h1 with h1 | ⟨-, h1⟩
    · omega
    · rcases h2 with h2 | ⟨-, h2⟩
      · omega
      · exact String.le_antisymm h2 h1
  cases a with
  | nil => exact absurd rfl ca.2.2.1
  | cons x xs =>
    cases b with
    | nil => exact absurd rfl cb.2.2.1
    | cons y ys =>
      simp only [List.headD_cons] at hhead
      subst hhead
      obtain ⟨a0, -, ea⟩ := (mem_sortComponents _ _).mp ha
      obtain ⟨b0, -, eb⟩ := (mem_sortComponents _ _).mp hb'
      refine eq_of_same_members ca.1 cb.1 (ea ▸ sorted_sortStr _) (eb ▸ sorted_sortStr _) (fun z => ?_)
      constructor
      · intro hz
        exact (cb.2.2.2 x (by simp) z (ca.2.1 z hz)).mpr ((ca.2.2.2 x (by simp) z (ca.2.1 z hz)).mp hz)
      · intro hz
        exact (ca.2.2.2 x (by simp) z (cb.2.1 z hz)).mpr ((cb.2.2.2 x (by simp) z (cb.2.1 z hz)).mp hz)

end ML
