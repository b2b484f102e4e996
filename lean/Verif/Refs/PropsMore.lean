import Verif.Refs.Props
/-
C45: what happens to spaces.
-/
set_option autoImplicit false
namespace ML
open Spec

/-- The text `t` is `s` with some spaces left out, but none where there is no other space before. -/
inductive Spec.SpacesMerged : List Char → List Char → Prop
  | nil : Spec.SpacesMerged [] []
  | keep (c : Char) {s t : List Char} : Spec.SpacesMerged s t → Spec.SpacesMerged (c :: s) (c :: t)
  | skip {s t : List Char} : Spec.SpacesMerged (' ' :: s) (' ' :: t) → Spec.SpacesMerged (' ' :: ' ' :: s) (' ' :: t)

theorem collapse_merged (s : List Char) : SpacesMerged s (collapseSpaces false s) ∧ SpacesMerged (' ' :: s) (' ' :: collapseSpaces true s) := by
  induction s with
  | nil => exact ⟨.nil, .keep _ .nil⟩
  | cons c s ih =>
    by_cases hc : c = ' '
    · subst hc
      simp only [collapseSpaces, if_true]
      exact ⟨by simpa using ih.2, .skip ih.2⟩
    · simp only [collapseSpaces, if_neg hc]
      exact ⟨.keep c ih.1, .keep _ (.keep c ih.1)⟩

theorem collapse_single (s : List Char) : ¬ [' ', ' '] <:+: collapseSpaces false s ∧ ¬ [' ', ' '] <:+: ' ' :: collapseSpaces true s := by
  induction s with
  | nil => decide
  | cons c s ih =>
    by_cases hc : c = ' '
    · subst hc
      simp only [collapseSpaces, if_true]
      exact ⟨by simpa using ih.2, ih.2⟩
    · simp only [collapseSpaces, if_neg hc]
      have h1 : ¬ [' ', ' '] <:+: c :: collapseSpaces false s := by
        rw [List.infix_cons_iff]
        rintro (h | h)
        · obtain ⟨t, ht⟩ := h
          injection ht with h1 _
          exact hc h1.symm
        · exact ih.1 h
      refine ⟨h1, ?_⟩
      rw [List.infix_cons_iff]
      rintro (h | h)
      · obtain ⟨t, ht⟩ := h
        injection ht with _ h2
        injection h2 with h3 _
        exact hc h3.symm
      · exact h1 h

/-- C45: in the SQL of a field only spaces are left out, each because another one stands before it, and no two spaces are left in a row. -/
theorem C45_one_space (get : List Char → List Char → Res RField) (n : ℕ) (f : RField) (t r : List Char) (hf : f.sql = some t) (hw : f.wrap = id)
    (h : rawSql get n f = .ok r) : ∃ full, SpacesMerged (strip full) r ∧ ¬ [' ', ' '] <:+: r := by
  cases n with
  | zero => cases h
  | succ n =>
    unfold rawSql at h
    rw [hf] at h
    simp only at h
    split at h
    · cases h
    · split at h
      · cases h
      · split at h
        · cases h
        · rename_i full _
          injection h with h
          rw [hw] at h
          subst h
          exact ⟨full, (collapse_merged _).1, (collapse_single _).1⟩

example : rawSql exGet 5 (plainField "orders" "a    +  b") = .ok "a + b".toList ∧ (plainField "orders" "a    +  b").wrap = id := by
  exact ⟨by decide +kernel, rfl⟩

end ML
