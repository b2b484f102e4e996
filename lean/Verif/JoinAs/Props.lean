import Verif.JoinAs.Lemmas
/-
C46 join_as creates an independent copy and moves the key.
-/
set_option autoImplicit false
namespace ML
open Spec

/-! ### C46 -/

/-- C46 (a): without a clash the result is the original views, in order, each without the keys
that moved away and otherwise unchanged, followed by one copy per distinct `join_as` name, in order
of first use. -/
theorem C46_result (views : List JView) (h : ¬ Clash views) :
    ∃ copies : List JView, handleJoinAs views = .ok (views.map stripped ++ copies) ∧
      copies.length = (firstPerName (requests views)).length ∧
      ∀ (k : Nat) r, (firstPerName (requests views))[k]? = some r → ∃ w, copies[k]? = some w ∧ IsCopy r w := by
  have ha : Agree [] (requests views) := by
    rw [agree_nil]
    intro r hr q hq e
    by_cases hn : r.view.name = q.view.name
    · exact hn
    · exact absurd ⟨r, hr, q, hq, e, hn⟩ h
  have hs := (joinAsViews_spec views [] (by simp [Keyed])).1 ha
  rw [fresh_nil] at hs
  refine ⟨(firstPerName (requests views)).map (fun r => { (entry r).2 with name := (entry r).1 }), ?_, ?_, ?_⟩
  · simp only [handleJoinAs, hs, List.nil_append, List.map_map]; rfl
  · simp
  · intro k r hk
    exact ⟨_, by rw [List.getElem?_map, hk]; rfl, entry_isCopy r⟩

/-- C46 (b): the names of the copies are the requested names, each exactly once. -/
theorem C46_names (views : List JView) :
    (∀ n, (∃ r ∈ firstPerName (requests views), r.name = n) ↔ ∃ r ∈ requests views, r.name = n) ∧
    ((firstPerName (requests views)).map (·.name)).Nodup := by
  refine ⟨firstPerName_names _, ?_⟩
  generalize requests views = rs
  induction rs with
  | nil => simp [firstPerName]
  | cons r rs ih =>
    simp only [firstPerName, List.map_cons, List.nodup_cons, List.mem_map, List.mem_filter,
      decide_eq_true_eq, not_exists, not_and]
    refine ⟨fun q hq e => hq.2 e, ?_⟩
    rw [List.nodup_iff_pairwise_ne, List.pairwise_map] at ih ⊢
    exact ih.filter _

/-- C46 (c): the original view keeps every identifier whose name is not the name of one of its own
primary `join_as` identifiers, in order, and loses the others. -/
theorem C46_original_keeps (v : JView) (j : JIdent) :
    j ∈ (stripped v).identifiers ↔ j ∈ v.identifiers ∧
      ∀ i ∈ v.identifiers, i.typ = "primary" → i.joinAs ≠ none → i.name ≠ j.name := by
  simp only [stripped, List.mem_filter, Bool.not_eq_true', List.any_eq_false, beq_iff_eq]
  refine and_congr_right (fun _ => ?_)
  constructor
  · intro h i hi hp hj e
    cases hja : i.joinAs with
    | none => exact hj hja
    | some a =>
      refine h ⟨v, i, a⟩ ?_ e
      simp only [viewRequests, List.mem_filterMap]
      exact ⟨i, hi, by simp [hja, hp]⟩
  · intro h r hr e
    simp only [viewRequests, List.mem_filterMap] at hr
    obtain ⟨i, hi, hr⟩ := hr
    cases hja : i.joinAs with
    | none => rw [hja] at hr; cases hr
    | some a =>
      rw [hja] at hr
      simp only at hr
      split at hr
      · rename_i hp
        cases hr
        exact h i hi hp (by simp [hja]) e
      · cases hr

/-- C46 (d): clashing names on differently named views raise, and only those. -/
theorem C46_raises_iff (views : List JView) :
    handleJoinAs views = .error .query ↔ Clash views := by
  constructor
  · intro h
    by_cases hc : Clash views
    · exact hc
    · obtain ⟨copies, h1, -⟩ := C46_result views hc
      rw [h1] at h; cases h
  · rintro ⟨r, hr, q, hq, e, hn⟩
    have ha : ¬ Agree [] (requests views) := by
      rw [agree_nil]
      exact fun c => hn (c r hr q hq e)
    simp only [handleJoinAs, (joinAsViews_spec views [] (by simp [Keyed])).2 ha]

/-- C46 (e): "each primary identifier with join_as yields one extra view" is false when one view
uses the same `join_as` twice: the second identifier leaves the original and appears nowhere. -/
theorem C46_same_name_twice_loses_identifier :
    ∃ (v : JView) (i : JIdent) (out : List JView), i ∈ v.identifiers ∧ i.typ = "primary" ∧
      i.joinAs ≠ none ∧ handleJoinAs [v] = .ok out ∧
      ∀ w ∈ out, ∀ j ∈ w.identifiers, j.name ≠ i.name := by
  refine ⟨{ name := "users", identifiers := [⟨"a", "primary", some "x", none, none, false, ""⟩,
      ⟨"b", "primary", some "x", none, none, false, ""⟩] },
    ⟨"b", "primary", some "x", none, none, false, ""⟩,
    [{ name := "users" }, { name := "x", fieldPrefix := some "X", identifiers := [⟨"a", "primary", none, none, none, false, ""⟩] }], ?_, rfl, ?_, ?_, ?_⟩
  · decide
  · decide
  · decide
  · decide

/-! ### Concrete case -/
namespace JoinAsExample
def users : JView :=
  { name := "users", rest := "sql_table_name: users",
    identifiers := [⟨"id", "primary", none, none, none, false, ""⟩,
      ⟨"buyer", "primary", some "buyer_users", some "Buyer", none, false, ""⟩,
      ⟨"seller", "primary", some "seller_users", none, none, true, ""⟩],
    fields := [⟨false, "name"⟩, ⟨true, "count"⟩] }
example : ¬ Clash [users, { name := "orders" }] := by
  intro h
  have := (C46_raises_iff _).mpr h
  revert this
  decide
example : handleJoinAs [users, { name := "orders" }] = .ok
    [{ users with identifiers := [⟨"id", "primary", none, none, none, false, ""⟩] },
     { name := "orders" },
     { users with name := "buyer_users", label := some "Buyer", fieldPrefix := some "Buyer",
                  identifiers := [⟨"buyer", "primary", none, some "Buyer", none, false, ""⟩],
                  fields := [⟨false, "name"⟩] },
     { users with name := "seller_users", fieldPrefix := some "Seller Users",
                  identifiers := [⟨"seller", "primary", none, none, none, true, ""⟩] }] := by decide
example : Clash [users, { users with name := "people" }] := (C46_raises_iff _).mp (by decide)
end JoinAsExample

end ML
