import Verif.Local.Props
import Verif.Slice.PropsEx
/-
C85: concrete cases.
-/
set_option autoImplicit false
namespace ML
open Spec

theorem local_same (a b : List (Nat × Nat × Nat × Nat)) : SameWarehouse (sliceDb a) (sliceDb b) := ⟨rfl, rfl⟩

theorem local_orders : OrdersRequested (drillP (.key "orders.id")) .snowflake sliceH :=
  slice_ordered (n := "buyers") rfl (by decide +kernel) (by decide) (by simp [sliceH, drillQ])

theorem local_proper : Proper (drillP (.key "orders.id")) sliceH [drillRegion] [drillBuyers, drillRevenue] := by
  obtain ⟨-, hp, -⟩ := drill_proper (.key "orders.id")
  exact ⟨hp.dims, hp.metrics, hp.dimension, hp.measure, trivial, ⟨trivial, trivial⟩⟩

theorem local_groups (q : Question) : GroupsRows q [drillRegion] [drillBuyers, drillRevenue] := by
  refine .inr fun m _ d hd hpk => ?_
  rw [List.mem_singleton] at hd
  subst hd
  cases hpk

theorem local_havings : HavingsOnMetrics (drillP (.key "orders.id")) sliceH := by
  intro l hl i hi
  exact ⟨drillBuyers, _, (drill_get _).2.2.1, rfl⟩

/-- The hypotheses of C85 (a) and (c): an order of region 3 is new; the line of region 1, where there is one buyer, stays. -/
example : ∃ s out out', buildStmt (drillP (.key "orders.id")) .snowflake sliceH = .ok s ∧ s.Answers (sliceDb [(1, 1, 7, 10), (2, 2, 7, 5)]) out ∧
    s.Answers (sliceDb [(3, 3, 9, 4), (1, 1, 7, 10), (2, 2, 7, 5)]) out' ∧ ∀ rest, [some 1] ++ rest ∈ out ↔ [some 1] ++ rest ∈ out' := by
  obtain ⟨s, hs⟩ := ok_of_isOk (x := buildStmt (drillP (.key "orders.id")) .snowflake sliceH) (by decide +kernel)
  have hl : (([drillRegion] ++ [drillBuyers, drillRevenue]).map AnsField.label).Nodup := by decide +kernel
  obtain ⟨out, ho⟩ := C55_answered _ _ _ s hs _ _ local_proper rfl hl (fun _ => local_orders) (sliceDb [(1, 1, 7, 10), (2, 2, 7, 5)])
  obtain ⟨out', ho'⟩ := C55_answered _ _ _ s hs _ _ local_proper rfl hl (fun _ => local_orders) (sliceDb [(3, 3, 9, 4), (1, 1, 7, 10), (2, 2, 7, 5)])
  refine ⟨s, out, out', hs, ho, ho', fun rest => ?_⟩
  refine C85_new_rows _ _ _ s hs _ _ local_proper (by simp) (local_groups _) (slice_all ⟨rfl, rfl, rfl⟩ (o := ("buyers", true)) (by decide +kernel) (by decide)) (drillP_labels _)
    local_havings _ _ (local_same _ [(3, 3, 9, 4), (1, 1, 7, 10), (2, 2, 7, 5)]) (slice_set _ _) [some 1] rfl (fun _ => [(3, 3, 9, 4)]) (fun _ => ?_) ?_ out out' ho ho' rest
  · exact (List.perm_append_comm (l₁ := [(3, 3, 9, 4)]) (l₂ := [(1, 1, 7, 10), (2, 2, 7, 5)]))
  · intro views _ r hr
    rw [List.mem_singleton] at hr
    subst hr
    right
    show dimensionsOf (sliceDb [(1, 1, 7, 10), (2, 2, 7, 5)]) .snowflake (.key "orders.id") [drillRegion] (3, 3, 9, 4) ≠ [some 1]
    decide +kernel

/-- The hypotheses of C85 (b): the orders are stored in another order. -/
example : ∃ s out out', buildStmt (drillP (.key "orders.id")) .snowflake sliceH = .ok s ∧ s.Answers (sliceDb [(1, 1, 7, 10), (2, 2, 7, 5), (3, 2, 8, 1)]) out ∧
    s.Answers (sliceDb [(3, 2, 8, 1), (2, 2, 7, 5), (1, 1, 7, 10)]) out' ∧ out.Perm out' := by
  obtain ⟨s, hs⟩ := ok_of_isOk (x := buildStmt (drillP (.key "orders.id")) .snowflake sliceH) (by decide +kernel)
  have hl : (([drillRegion] ++ [drillBuyers, drillRevenue]).map AnsField.label).Nodup := by decide +kernel
  obtain ⟨out, ho⟩ := C55_answered _ _ _ s hs _ _ local_proper rfl hl (fun _ => local_orders) (sliceDb [(1, 1, 7, 10), (2, 2, 7, 5), (3, 2, 8, 1)])
  obtain ⟨out', ho'⟩ := C55_answered _ _ _ s hs _ _ local_proper rfl hl (fun _ => local_orders) (sliceDb [(3, 2, 8, 1), (2, 2, 7, 5), (1, 1, 7, 10)])
  exact ⟨s, out, out', hs, ho, ho', C85_storage _ _ _ s hs _ _ local_proper (by simp) (local_groups _)
    (slice_all ⟨rfl, rfl, rfl⟩ (o := ("buyers", true)) (by decide +kernel) (by decide)) (drillP_labels _) local_havings _ _ (local_same _ [(3, 2, 8, 1), (2, 2, 7, 5), (1, 1, 7, 10)]) (slice_set _ _)
    (fun _ => (List.reverse_perm [(3, 2, 8, 1), (2, 2, 7, 5), (1, 1, 7, 10)])) out out' ho ho'⟩

/-- The hypotheses of C85 (d): buyers and revenue in region 1, when an order of region 2 is new. -/
example : ∃ s out out', buildStmt (drillP (.key "orders.id")) .snowflake { sliceQ with dimensions := [] } = .ok s ∧ s.Answers (sliceDb [(1, 1, 7, 10)]) out ∧
    s.Answers (sliceDb [(1, 1, 7, 10), (2, 2, 7, 5)]) out' ∧ out = out' := by
  obtain ⟨s, hs⟩ := ok_of_isOk (x := buildStmt (drillP (.key "orders.id")) .snowflake { sliceQ with dimensions := [] }) (by decide +kernel)
  obtain ⟨hp0, -, -⟩ := drill_proper (.key "orders.id")
  have hp : Proper (drillP (.key "orders.id")) { sliceQ with dimensions := [] } [] [drillBuyers, drillRevenue] :=
    ⟨hp0.dims, hp0.metrics, hp0.dimension, hp0.measure, ⟨trivial, trivial⟩, trivial⟩
  have hl : (([] ++ [drillBuyers, drillRevenue]).map AnsField.label).Nodup := by decide +kernel
  have hord : OrdersRequested (drillP (.key "orders.id")) .snowflake { sliceQ with dimensions := [] } :=
    slice_ordered (n := "buyers") rfl (by decide +kernel) (by decide) (by simp [sliceQ, drillQ])
  obtain ⟨out, ho⟩ := C55_answered _ _ _ s hs _ _ hp rfl hl (fun _ => hord) (sliceDb [(1, 1, 7, 10)])
  obtain ⟨out', ho'⟩ := C55_answered _ _ _ s hs _ _ hp rfl hl (fun _ => hord) (sliceDb [(1, 1, 7, 10), (2, 2, 7, 5)])
  refine ⟨s, out, out', hs, ho, ho', C85_total _ _ _ s hs _ hp rfl (by simp [sliceQ, drillQ]) (fun l hl => absurd (show l ∈ [] from hl) List.not_mem_nil) _ _ (local_same _ [(1, 1, 7, 10), (2, 2, 7, 5)]) (slice_set _ _)
    (fun _ => [(2, 2, 7, 5)]) (fun _ => .refl _) ?_ out out' ho ho'⟩
  intro views _ r hr hpass
  rw [List.mem_singleton] at hr
  subst hr
  have := hpass.2 (meaning (compared (sliceDb [(1, 1, 7, 10)]) (drillP (.key "orders.id")) .snowflake (.key "orders.id") (fun _ => "region") [(2, 2, 7, 5)])
    (.leaf { field := some "region", first := 0 })) List.mem_cons_self
  revert this
  decide +kernel

end ML
