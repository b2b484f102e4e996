import Verif.Names.Spec
/-
Helper lemmas for `Verif/Names/Props.lean`.
-/
set_option autoImplicit false
namespace ML

theorem splitChars_ne_nil (c : Char) (s : List Char) : splitChars c s ≠ [] := by
  cases s with
  | nil => simp [splitChars]
  | cons x xs =>
    simp only [splitChars]
    split
    · simp
    · split <;> simp

theorem splitChars_length (c : Char) (s : List Char) :
    (splitChars c s).length = s.count c + 1 := by
  induction s with
  | nil => simp [splitChars]
  | cons x xs ih =>
    simp only [splitChars]
    by_cases h : x = c
    · simp [h, ih]
    · rw [if_neg h]
      have hc : (x :: xs).count c = xs.count c := List.count_cons_of_ne h
      rw [hc, ← ih]
      split
      · rename_i h2; exact absurd h2 (splitChars_ne_nil c xs)
      · rename_i h2; rw [h2]; simp

theorem splitChars_intercalate (c : Char) (s : List Char) :
    [c].intercalate (splitChars c s) = s := by
  induction s with
  | nil => simp [splitChars, List.intercalate]
  | cons x xs ih =>
    simp only [splitChars]
    split
    · rename_i h
      subst h
      have hne := splitChars_ne_nil x xs
      revert ih hne
      generalize splitChars x xs = l
      intro ih hne
      cases l with
      | nil => exact absurd rfl hne
      | cons p ps => simp [List.intercalate] at ih ⊢; exact ih
    · split
      · rename_i h2; exact absurd h2 (splitChars_ne_nil c xs)
      · rename_i p ps h2
        rw [h2] at ih
        cases ps with
        | nil => simp [List.intercalate] at ih ⊢; exact ih
        | cons q qs => simp [List.intercalate] at ih ⊢; exact ih

theorem splitChars_noSep (c : Char) (s : List Char) (h : c ∉ s) : splitChars c s = [s] := by
  induction s with
  | nil => simp [splitChars]
  | cons x xs ih =>
    simp only [List.mem_cons, not_or] at h
    simp only [splitChars]
    rw [if_neg (fun e => h.1 e.symm), ih h.2]

theorem splitChars_append (c : Char) (a b : List Char) (h : c ∉ a) :
    splitChars c (a ++ c :: b) = a :: splitChars c b := by
  induction a with
  | nil => simp [splitChars]
  | cons x xs ih =>
    simp only [List.mem_cons, not_or] at h
    simp only [List.cons_append, splitChars]
    rw [if_neg (fun e => h.1 e.symm), ih h.2]

theorem splitChars_parts_noSep (c : Char) (s : List Char) : ∀ p ∈ splitChars c s, c ∉ p := by
  induction s with
  | nil => simp [splitChars]
  | cons x xs ih =>
    simp only [splitChars]
    split
    · intro p hp
      simp only [List.mem_cons] at hp
      rcases hp with rfl | hp
      · simp
      · exact ih p hp
    · rename_i hx
      split
      · rename_i h2; exact absurd h2 (splitChars_ne_nil c xs)
      · rename_i p ps h2
        rw [h2] at ih
        intro q hq
        simp only [List.mem_cons] at hq
        rcases hq with rfl | hq
        · simp only [List.mem_cons, not_or]
          exact ⟨fun e => hx e.symm, ih p (by simp)⟩
        · exact ih q (by simp [hq])

theorem fieldNameParts_three (s : String) (h : s.toList.count '.' = 2) :
    ∃ e v n, splitChars '.' s.toList = [e, v, n] := by
  have hl := splitChars_length '.' s.toList
  rw [h] at hl
  match hs : splitChars '.' s.toList, hl with
  | [e, v, n], _ => exact ⟨e, v, n, rfl⟩

theorem fieldNameParts_two (s : String) (h : s.toList.count '.' = 1) :
    ∃ v n, splitChars '.' s.toList = [v, n] := by
  have hl := splitChars_length '.' s.toList
  rw [h] at hl
  match hs : splitChars '.' s.toList, hl with
  | [v, n], _ => exact ⟨v, n, rfl⟩

end ML
