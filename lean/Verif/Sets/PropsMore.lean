import Verif.Sets.Props
import Verif.Access.Lemmas
/-
C30: names that belong to no view.
-/
set_option autoImplicit false
namespace ML
open Spec

/-- C30: a set without a view that lists a field without its view is rejected, whatever else it lists after it; an exclusion as well. -/
theorem C30_no_view (env : SetEnv) (fuel : ℕ) (s : SetDef) (field : String) (es : List String) (h : s.viewName = none ∨ s.viewName = some "")
    (hd : '.' ∉ field.toList) (hs : '*' ∉ field.toList) (hm : '-' ∉ field.toList)
    (hf : s.fields = field :: es ∨ s.fields = ("-" ++ field) :: es) : setFieldNames env (fuel + 1) s = .error .query := by
  have hname : setFieldName s field = .error .query := by
    unfold setFieldName setViewName
    rw [fieldNameParts_dotFree hd]
    rcases h with h | h <;> simp [h]
  have hw : without '-' ("-" ++ field) = field := by
    unfold without
    rw [String.toList_append, List.filter_append, show "-".toList.filter (· ≠ '-') = [] from by decide]
    rw [List.nil_append, List.filter_eq_self.2, String.ofList_toList]
    intro c hc
    exact decide_eq_true (fun e : c = '-' => hm (e ▸ hc))
  unfold setFieldNames
  rcases hf with hf | hf <;> rw [hf, setEntries, setEntry]
  · rw [if_neg (fun hh => hs hh.1), if_neg hs, if_neg hm, hname]
  · have h1 : '*' ∉ ("-" ++ field).toList := by
      rw [String.toList_append, List.mem_append]
      rintro (hh | hh)
      · revert hh; decide
      · exact hs hh
    rw [if_neg (fun hh => h1 hh.1), if_neg h1, if_pos (by rw [String.toList_append]; exact List.mem_append_left _ (by decide)), hw, hname]

example : ∃ s : SetDef, s.viewName = none ∧ s.fields = ["revenue", "orders.id"] ∧ '.' ∉ "revenue".toList ∧
    setFieldNames setEnvEx 5 s = .error .query :=
  ⟨{ setShown with viewName := none, fields := ["revenue", "orders.id"] }, rfl, rfl, by decide, by decide +kernel⟩

end ML
