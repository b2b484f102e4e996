import Verif.Slice.Props
import Verif.Drill.PropsEx
/-
C82, C83: concrete cases.
-/
set_option autoImplicit false
namespace ML
open Spec

/-- The orders, with a comparison with 1 (an example; it models no file in /repo). -/
def sliceDb (rows : List (Nat × Nat × Nat × Nat)) : Db (Nat × Nat × Nat × Nat) :=
  { drillDb rows with test := fun _ v => if v = some 1 then .t else if v = none then .u else .f }

theorem slice_set (rows : List (Nat × Nat × Nat × Nat)) (fpk : FunctionalPk) : SetOfViews (sliceDb rows) (drillP fpk) :=
  fun _ _ _ => ⟨rfl, rfl, fun _ => Iff.rfl⟩

/-- The columns of a query on orders are of the view orders. -/
theorem slice_views (fpk : FunctionalPk) (q : Question) (hq : ∀ n ∈ q.metrics ++ q.dimensions ++ q.whereNames ++ q.havingNames ++ q.orderNames, n = "buyers" ∨ n = "revenue" ∨ n = "region")
    (hm : "revenue" ∈ q.metrics) (views : List String) (h : QueryViews (drillP fpk) q views) (v : String) : v ∈ views ↔ v = "orders" := by
  obtain ⟨h1, h2, h3, h4⟩ := drill_get fpk
  obtain ⟨fs, hn, -, hv⟩ := h
  have hall : ∀ f ∈ fs, f.view = "orders" := by
    intro f hf
    obtain ⟨n, hn1, hn2⟩ := forall₂_mem_right hn hf
    rcases hq n hn1 with rfl | rfl | rfl
    · rw [h3] at hn2; cases hn2; rfl
    · rw [h4] at hn2; cases hn2; rfl
    · rw [h1] at hn2; cases hn2; rfl
  rw [hv]
  constructor
  · rintro ⟨f, hf, rfl⟩
    exact hall f hf
  · rintro rfl
    obtain ⟨f, hf, -⟩ := forall₂_mem_left hn (show "revenue" ∈ _ by simp [hm])
    exact ⟨f, hf, hall f hf⟩

theorem slice_same (fpk : FunctionalPk) (q q' : Question)
    (hq : ∀ n ∈ q.metrics ++ q.dimensions ++ q.whereNames ++ q.havingNames ++ q.orderNames, n = "buyers" ∨ n = "revenue" ∨ n = "region") (hm : "revenue" ∈ q.metrics)
    (hq' : ∀ n ∈ q'.metrics ++ q'.dimensions ++ q'.whereNames ++ q'.havingNames ++ q'.orderNames, n = "buyers" ∨ n = "revenue" ∨ n = "region")
    (hm' : "revenue" ∈ q'.metrics) : SameViews (drillP fpk) q q' := by
  intro views views' h h' v
  rw [slice_views fpk q hq hm views h v, slice_views fpk q' hq' hm' views' h' v]

/-- Buyers and revenue by region, in region 1 (an example; it models no file in /repo). -/
def sliceQ : Question := { drillQ ["region"] with wheres := [.leaf { field := some "region", first := 0 }], whereNames := ["region"] }

/-- Buyers and revenue by region, where there is one buyer (an example; it models no file in /repo). -/
def sliceH : Question := { drillQ ["region"] with havings := [.leaf { field := some "buyers", first := 0 }], havingNames := ["buyers"], fieldOf := fun _ => "buyers" }

/-- Revenue by region (an example; it models no file in /repo). -/
def sliceC : Question := { drillQ ["region"] with metrics := ["revenue"] }

theorem slice_all {q : Question} {o : String × Bool} (h : q.groupFilters = [] ∧ q.limit = none ∧ q.order = .absent) (ho : askedOrder .snowflake q = [o]) (hn : o.1 ≠ "__DEFAULT__") :
    ShowsAll .snowflake q := by
  refine ⟨h.1, h.2.1, by rw [h.2.2]; simp, ?_⟩
  rw [ho]
  simpa using hn

theorem slice_ordered {q : Question} {n : String} (h : q.order = .absent) (ho : askedOrder .snowflake q = [(n, true)]) (hn : n ≠ "__DEFAULT__") (hm : n ∈ q.metrics) :
    OrdersRequested (drillP (.key "orders.id")) .snowflake q := by
  refine ⟨by rw [h]; simp, fun o ho' => ?_⟩
  rw [ho, List.mem_singleton] at ho'
  subst ho'
  exact ⟨hn, n, by simp [hm], rfl⟩

/-- The hypotheses of C82 (a). -/
example : ∃ s s' out out', buildStmt (drillP (.key "orders.id")) .snowflake (drillQ ["region"]) = .ok s ∧ buildStmt (drillP (.key "orders.id")) .snowflake sliceQ = .ok s' ∧
    s.Answers (sliceDb [(1, 1, 7, 10), (2, 2, 7, 5), (3, 2, 8, 1)]) out ∧ s'.Answers (sliceDb [(1, 1, 7, 10), (2, 2, 7, 5), (3, 2, 8, 1)]) out' ∧
    out'.Perm (out.filter (fun l => TrueOf (sliceDb [(1, 1, 7, 10), (2, 2, 7, 5), (3, 2, 8, 1)]) (fun _ => 0) (.leaf { field := some "region", first := 0 }) l)) := by
  obtain ⟨s, hs⟩ := ok_of_isOk (x := buildStmt (drillP (.key "orders.id")) .snowflake (drillQ ["region"])) (by decide +kernel)
  obtain ⟨s', hs'⟩ := ok_of_isOk (x := buildStmt (drillP (.key "orders.id")) .snowflake sliceQ) (by decide +kernel)
  obtain ⟨-, hp, -⟩ := drill_proper (.key "orders.id")
  have hp' : Proper (drillP (.key "orders.id")) sliceQ [drillRegion] [drillBuyers, drillRevenue] :=
    ⟨hp.dims, hp.metrics, hp.dimension, hp.measure, ⟨trivial, trivial⟩, trivial⟩
  have a1 : askedOrder .snowflake (drillQ ["region"]) = [("buyers", true)] := by decide +kernel
  have a2 : askedOrder .snowflake sliceQ = [("buyers", true)] := by decide +kernel
  obtain ⟨out, ho⟩ := C55_answered _ _ _ s hs _ _ hp rfl (by decide +kernel) (fun _ => drill_orders _ _) (sliceDb [(1, 1, 7, 10), (2, 2, 7, 5), (3, 2, 8, 1)])
  obtain ⟨out', ho'⟩ := C55_answered _ _ _ s' hs' _ _ hp' rfl (by decide +kernel) (fun _ => slice_ordered rfl a2 (by decide) (by simp [sliceQ, drillQ]))
    (sliceDb [(1, 1, 7, 10), (2, 2, 7, 5), (3, 2, 8, 1)])
  refine ⟨s, s', out, out', hs, hs', ho, ho', C82_where _ _ _ _ s s' hs hs' _ _ hp hp' (by simp) (drill_groups _ _ (by simp [drillRegion]))
    (.inr fun m _ d hd hpk => ?_) (slice_all ⟨rfl, rfl, rfl⟩ a1 (by decide)) (slice_all ⟨rfl, rfl, rfl⟩ a2 (by decide)) (drillP_labels _) _ (slice_set _ _)
    (slice_same _ _ _ (by decide) (by decide) (by decide) (by decide)) _ rfl rfl rfl _ ?_ out out' ho ho'⟩
  · rw [List.mem_singleton] at hd
    subst hd
    cases hpk
  · intro l hl i hi
    exact ⟨drillRegion, rfl, (drill_get _).1⟩

/-- The hypotheses of C82 (b). -/
example : ∃ s s' out out', buildStmt (drillP (.key "orders.id")) .snowflake { drillQ ["region"] with fieldOf := fun _ => "buyers" } = .ok s ∧
    buildStmt (drillP (.key "orders.id")) .snowflake sliceH = .ok s' ∧
    s.Answers (sliceDb [(1, 1, 7, 10), (2, 2, 7, 5), (3, 2, 8, 1)]) out ∧ s'.Answers (sliceDb [(1, 1, 7, 10), (2, 2, 7, 5), (3, 2, 8, 1)]) out' ∧
    out'.Perm (out.filter (fun l => TrueOf (sliceDb [(1, 1, 7, 10), (2, 2, 7, 5), (3, 2, 8, 1)]) (fun _ => 1) (.leaf { field := some "buyers", first := 0 }) l)) := by
  obtain ⟨s, hs⟩ := ok_of_isOk (x := buildStmt (drillP (.key "orders.id")) .snowflake { drillQ ["region"] with fieldOf := fun _ => "buyers" }) (by decide +kernel)
  obtain ⟨s', hs'⟩ := ok_of_isOk (x := buildStmt (drillP (.key "orders.id")) .snowflake sliceH) (by decide +kernel)
  obtain ⟨-, hp0, -⟩ := drill_proper (.key "orders.id")
  have hp : Proper (drillP (.key "orders.id")) { drillQ ["region"] with fieldOf := fun _ => "buyers" } [drillRegion] [drillBuyers, drillRevenue] :=
    ⟨hp0.dims, hp0.metrics, hp0.dimension, hp0.measure, trivial, trivial⟩
  have hp' : Proper (drillP (.key "orders.id")) sliceH [drillRegion] [drillBuyers, drillRevenue] :=
    ⟨hp.dims, hp.metrics, hp.dimension, hp.measure, trivial, ⟨trivial, trivial⟩⟩
  have a1 : askedOrder .snowflake { drillQ ["region"] with fieldOf := fun _ => "buyers" } = [("buyers", true)] := by decide +kernel
  have a2 : askedOrder .snowflake sliceH = [("buyers", true)] := by decide +kernel
  have hgr : ∀ q : Question, GroupsRows q [drillRegion] [drillBuyers, drillRevenue] := by
    intro q
    refine .inr fun m _ d hd hpk => ?_
    rw [List.mem_singleton] at hd
    subst hd
    cases hpk
  obtain ⟨out, ho⟩ := C55_answered _ _ _ s hs _ _ hp rfl (by decide +kernel) (fun _ => slice_ordered rfl a1 (by decide) (by simp [drillQ]))
    (sliceDb [(1, 1, 7, 10), (2, 2, 7, 5), (3, 2, 8, 1)])
  obtain ⟨out', ho'⟩ := C55_answered _ _ _ s' hs' _ _ hp' rfl (by decide +kernel) (fun _ => slice_ordered rfl a2 (by decide) (by simp [sliceH, drillQ]))
    (sliceDb [(1, 1, 7, 10), (2, 2, 7, 5), (3, 2, 8, 1)])
  refine ⟨s, s', out, out', hs, hs', ho, ho', C82_having _ _ _ _ s s' hs hs' _ _ hp hp' (by simp) (hgr _) (hgr _)
    (slice_all ⟨rfl, rfl, rfl⟩ a1 (by decide)) (slice_all ⟨rfl, rfl, rfl⟩ a2 (by decide)) (drillP_labels _) _ (slice_set _ _)
    (slice_same _ _ _ (by decide) (by decide) (by decide) (by decide)) _ rfl rfl rfl (fun _ => 0) ?_ out out' ho ho'⟩
  intro l hl i hi
  exact ⟨drillBuyers, rfl, (drill_get _).2.2.1⟩

/-- The hypotheses of C83: revenue alone is the third column of buyers and revenue. -/
example : ∃ s s' out out', buildStmt (drillP (.key "orders.id")) .snowflake (drillQ ["region"]) = .ok s ∧ buildStmt (drillP (.key "orders.id")) .snowflake sliceC = .ok s' ∧
    s.Answers (sliceDb [(1, 1, 7, 10), (2, 2, 7, 5), (3, 2, 8, 1)]) out ∧ s'.Answers (sliceDb [(1, 1, 7, 10), (2, 2, 7, 5), (3, 2, 8, 1)]) out' ∧
    out'.Perm (out.map (columns [0, 2])) := by
  obtain ⟨s, hs⟩ := ok_of_isOk (x := buildStmt (drillP (.key "orders.id")) .snowflake (drillQ ["region"])) (by decide +kernel)
  obtain ⟨s', hs'⟩ := ok_of_isOk (x := buildStmt (drillP (.key "orders.id")) .snowflake sliceC) (by decide +kernel)
  obtain ⟨-, hp, -⟩ := drill_proper (.key "orders.id")
  have hp' : Proper (drillP (.key "orders.id")) sliceC [drillRegion] [drillRevenue] :=
    ⟨hp.dims, .cons (drill_get _).2.2.2 .nil, hp.dimension, by simp [drillRevenue], trivial, trivial⟩
  have a1 : askedOrder .snowflake (drillQ ["region"]) = [("buyers", true)] := by decide +kernel
  have a2 : askedOrder .snowflake sliceC = [("revenue", true)] := by decide +kernel
  obtain ⟨out, ho⟩ := C55_answered _ _ _ s hs _ _ hp rfl (by decide +kernel) (fun _ => drill_orders _ _) (sliceDb [(1, 1, 7, 10), (2, 2, 7, 5), (3, 2, 8, 1)])
  obtain ⟨out', ho'⟩ := C55_answered _ _ _ s' hs' _ _ hp' rfl (by decide +kernel) (fun _ => slice_ordered rfl a2 (by decide) (by simp [sliceC]))
    (sliceDb [(1, 1, 7, 10), (2, 2, 7, 5), (3, 2, 8, 1)])
  have := C83_columns _ _ _ _ s s' hs hs' _ _ _ _ hp hp' (by simp) (drill_groups _ _ (by simp [drillRegion]))
    (.inr fun m _ d hd hpk => by rw [List.mem_singleton] at hd; subst hd; cases hpk) (slice_all ⟨rfl, rfl, rfl⟩ a1 (by decide))
    (slice_all ⟨rfl, rfl, rfl⟩ a2 (by decide)) (drillP_labels _) _ (slice_set _ _) (slice_same _ _ _ (by decide) (by decide) (by decide) (by decide)) rfl rfl rfl
    (fun _ h => h) [0] [1] (.cons rfl .nil) (.cons rfl .nil) out out' ho ho'
  exact ⟨s, s', out, out', hs, hs', ho, ho', this⟩

end ML
