import Verif.Names.Lemmas
/-
C06. Qualified names split and join losslessly.
-/
set_option autoImplicit false
namespace ML

/-- C06 (a): splitting never loses text: joining the parts with dots gives the input back. -/
theorem C06_join_split (s : String) : Spec.joinParts (fieldNameParts s) = s := by
  unfold fieldNameParts
  split
  · rename_i h
    obtain ⟨e, v, n, hs⟩ := fieldNameParts_three s h
    have hj := splitChars_intercalate '.' s.toList
    rw [hs] at hj
    simp only [hs, Spec.joinParts]
    apply String.toList_inj.mp
    simp [List.intercalate] at hj
    simp [hj]
  · split
    · rename_i h
      obtain ⟨v, n, hs⟩ := fieldNameParts_two s h
      have hj := splitChars_intercalate '.' s.toList
      rw [hs] at hj
      simp only [hs, Spec.joinParts]
      apply String.toList_inj.mp
      simp [List.intercalate] at hj
      simp [hj]
    · rfl

/-- C06 (b): 'view.field' splits into its two dot-free parts. -/
theorem C06_split_two (v n : String) (hv : Spec.dotFree v) (hn : Spec.dotFree n) :
    fieldNameParts (v ++ "." ++ n) = (none, some v, n) := by
  have ht : (v ++ "." ++ n).toList = v.toList ++ '.' :: n.toList := by simp
  have hcnt : (v ++ "." ++ n).toList.count '.' = 1 := by
    rw [ht]; simp [List.count_eq_zero.mpr hv, List.count_eq_zero.mpr hn]
  unfold fieldNameParts
  rw [if_neg (by omega), if_pos hcnt, ht, splitChars_append _ _ _ hv, splitChars_noSep _ _ hn]
  simp

/-- C06 (c): 'explore.view.field' splits into its three dot-free parts. -/
theorem C06_split_three (e v n : String) (he : Spec.dotFree e) (hv : Spec.dotFree v)
    (hn : Spec.dotFree n) :
    fieldNameParts (e ++ "." ++ v ++ "." ++ n) = (some e, some v, n) := by
  have ht : (e ++ "." ++ v ++ "." ++ n).toList
      = e.toList ++ '.' :: (v.toList ++ '.' :: n.toList) := by simp
  have hcnt : (e ++ "." ++ v ++ "." ++ n).toList.count '.' = 2 := by
    rw [ht]
    simp [List.count_eq_zero.mpr he, List.count_eq_zero.mpr hv, List.count_eq_zero.mpr hn]
  unfold fieldNameParts
  rw [if_pos hcnt, ht, splitChars_append _ _ _ he, splitChars_append _ _ _ hv,
    splitChars_noSep _ _ hn]
  simp

/-- C06 (d): with no dot, or three or more, the whole text is the field name. -/
theorem C06_split_other (s : String) (h : s.toList.count '.' = 0 ∨ 3 ≤ s.toList.count '.') :
    fieldNameParts s = (none, none, s) := by
  unfold fieldNameParts
  rw [if_neg (by omega), if_neg (by omega)]

/-- C06 (e): whenever a view part is reported, view and field parts contain no dot. -/
theorem C06_parts_dotFree (s : String) (e : Option String) (v n : String)
    (h : fieldNameParts s = (e, some v, n)) : Spec.dotFree v ∧ Spec.dotFree n := by
  have hp := splitChars_parts_noSep '.' s.toList
  unfold fieldNameParts at h
  split at h
  · rename_i hc
    obtain ⟨e', v', n', hs⟩ := fieldNameParts_three s hc
    rw [hs] at hp
    simp only [hs, Prod.mk.injEq, Option.some.injEq] at h
    obtain ⟨-, rfl, rfl⟩ := h
    simp [Spec.dotFree, hp]
  · split at h
    · rename_i hc
      obtain ⟨v', n', hs⟩ := fieldNameParts_two s hc
      rw [hs] at hp
      simp only [hs, Prod.mk.injEq, Option.some.injEq] at h
      obtain ⟨-, rfl, rfl⟩ := h
      simp [Spec.dotFree, hp]
    · simp at h

/-- C06 (f): a name is valid exactly when it is non-empty and uses only letters, digits and
underscores. -/
theorem C06_validName (s : String) :
    validName s = true ↔ s.toList ≠ [] ∧ ∀ c ∈ s.toList,
      (('A' ≤ c ∧ c ≤ 'Z') ∨ ('a' ≤ c ∧ c ≤ 'z') ∨ ('0' ≤ c ∧ c ≤ '9') ∨ c = '_') := by
  have key : ∀ l : List Char, l.takeWhile isNameChar = l ↔ ∀ c ∈ l, isNameChar c = true := by
    intro l
    induction l with
    | nil => simp
    | cons x xs ih =>
      by_cases hx : isNameChar x
      · simp [hx, ih]
      · simp [hx]
  have hchar : ∀ c, isNameChar c = true ↔
      (('A' ≤ c ∧ c ≤ 'Z') ∨ ('a' ≤ c ∧ c ≤ 'z') ∨ ('0' ≤ c ∧ c ≤ '9') ∨ c = '_') := by
    intro c; simp [isNameChar, or_assoc]
  unfold validName
  simp only [← hchar]
  rw [← key]
  constructor
  · intro h
    split at h
    · cases h
    · rename_i hne
      have he : s.toList.takeWhile isNameChar = s.toList := by simpa using h
      refine ⟨?_, he⟩
      intro h0; rw [h0] at hne; simp at hne
  · rintro ⟨hne, he⟩
    rw [he]
    simp [hne]

example : fieldNameParts "orders.total" = (none, some "orders", "total") := by decide
example : fieldNameParts "m.orders.total" = (some "m", some "orders", "total") := by decide
example : fieldNameParts "a.b.c.d" = (none, none, "a.b.c.d") := by decide
example : Spec.dotFree "orders" ∧ Spec.dotFree "total" := by unfold Spec.dotFree; decide
example : validName "order_1" = true ∧ validName "order-1" = false := by decide

end ML
