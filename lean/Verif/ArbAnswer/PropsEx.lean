import Verif.ArbAnswer.PropsAll
import Verif.ArbAnswer.PropsPage
/- C91: concrete cases, and a line of the first query that is repeated. -/
set_option autoImplicit false
namespace ML
open Spec

/-- A line given by its columns (an example; it models no file in /repo). -/
def lineEx (l : List (String × ℕ)) : MLine ℕ := fun a => (l.find? (fun p => p.1 == a)).map (·.2)

/-- Two orders lines, for regions 1 and 2; visits of areas 2 and 3, by area or by area and day (an example; it models no file in
/repo). -/
def tablesEx (days : Bool) (cte : String) : List (MLine ℕ) :=
  if cte = "merged_query_0" then [lineEx [("orders_total", 10), ("orders_region", 1)], lineEx [("orders_total", 20), ("orders_region", 2)]]
  else if days then [lineEx [("visits_count", 5), ("visits_area", 2), ("visits_day", 7)],
    lineEx [("visits_count", 6), ("visits_area", 2), ("visits_day", 8)]]
  else [lineEx [("visits_count", 5), ("visits_area", 2)], lineEx [("visits_count", 6), ("visits_area", 3)],
    lineEx [("visits_count", 6), ("visits_area", 4)]]

/-- Orders by region and visits by area, joined in a given way (an example; it models no file in /repo). -/
def itemsEx (kind : String) : List MergeItem := [arbItems[0], itemEx ["visits.count"] ["visits.area"] "visits.area" kind]

/-- The merged query of these items (an example; it models no file in /repo). -/
def mergedEx (kind : SqlJoin) (name : String) : ArbQuery :=
  { subs := [⟨"merged_query_0", ["orders.total"], ["orders.region"], [], none⟩,
             ⟨"merged_query_1", ["visits.count"], ["visits.area"], [⟨"visits.area", "orders.region"⟩], some name⟩]
    joins := [("merged_query_1", kind, [⟨("merged_query_0", "orders_region"), ("merged_query_1", "visits_area"), false⟩])]
    columns := [("merged_query_0", "orders_total"), ("merged_query_0", "orders_region"), ("merged_query_1", "visits_count")]
    filters := [], orders := [] }

example : arbQuery arbEnvEx (itemsEx "left_outer") [] [] = .ok (mergedEx .left "left_outer") ∧
    arbQuery arbEnvEx (itemsEx "inner") [] [] = .ok (mergedEx .inner "inner") ∧
    arbQuery arbEnvEx (itemsEx "full_outer") [] [] = .ok (mergedEx .outer "full_outer") := by
  refine ⟨?_, ?_, ?_⟩ <;> decide +kernel

/-- With a left join every region is kept, with an inner join only the one that has visits. -/
example : arbAnswer id (tablesEx false) [] (mergedEx .left "left_outer") =
      [[("orders_total", some 10), ("orders_region", some 1), ("visits_count", none)],
       [("orders_total", some 20), ("orders_region", some 2), ("visits_count", some 5)]] ∧
    arbAnswer id (tablesEx false) [] (mergedEx .inner "inner") =
      [[("orders_total", some 20), ("orders_region", some 2), ("visits_count", some 5)]] := by
  constructor <;> decide +kernel

/-- The hypotheses of `C91_lines`, `C91_one_line_each` and `C91_keeps_first` hold here. -/
example : LeftOrInner (mergedEx .left "left_outer") ∧
    (∀ s ∈ (mergedEx .left "left_outer").subs.tail, OneLineEach arbEnvEx s (tablesEx false s.cte)) ∧
    (∀ s ∈ (mergedEx .left "left_outer").subs.tail, JoinedOnAll arbEnvEx s) := by
  refine ⟨?_, ?_, ?_⟩
  · intro s hs
    simp only [mergedEx, List.tail_cons, List.mem_singleton] at hs
    subst hs; exact .inr (.inl rfl)
  · intro s hs
    simp only [mergedEx, List.tail_cons, List.mem_singleton] at hs
    subst hs
    have : ∀ t t' : MLine ℕ, t "visits_area" ≠ t' "visits_area" → ∃ d ∈ ["visits.area"], ∃ f, arbEnvEx.get d = .ok f ∧
        t f.aliasName ≠ t' f.aliasName := fun t t' h => ⟨"visits.area", by simp, _, rfl, h⟩
    unfold OneLineEach
    refine List.Pairwise.imp (fun h => this _ _ h) ?_
    simp only [tablesEx]
    decide +kernel
  · intro s hs
    simp only [mergedEx, List.tail_cons, List.mem_singleton] at hs
    subst hs
    intro d hd f hf
    simp only [List.mem_singleton] at hd
    subst hd
    exact ⟨_, List.mem_singleton.mpr rfl, f, hf, rfl⟩

/-- The lines of areas 3 and 4, which no order has, show no area at all: they are twice the same line. -/
theorem C91_outer_hides_example : arbQuery arbEnvEx (itemsEx "full_outer") [] [] = .ok (mergedEx .outer "full_outer") ∧
    arbAnswer id (tablesEx false) [] (mergedEx .outer "full_outer") =
      [[("orders_total", some 10), ("orders_region", some 1), ("visits_count", none)],
       [("orders_total", some 20), ("orders_region", some 2), ("visits_count", some 5)],
       [("orders_total", none), ("orders_region", none), ("visits_count", some 6)],
       [("orders_total", none), ("orders_region", none), ("visits_count", some 6)]] := by
  constructor <;> decide +kernel

/-- C91 without the hypothesis on the dimensions is false: a later query with one more dimension repeats the lines of the first,
so that the total of a region is in the answer twice. -/
theorem C91_repeats :
    (arbQuery arbEnvEx [arbItems[0], itemEx ["visits.count"] ["visits.area", "visits.day"] "visits.area" "left_outer"] [] []).map
      (arbAnswer id (tablesEx true) []) = .ok
      [[("orders_total", some 10), ("orders_region", some 1), ("visits_count", none), ("visits_day", none)],
       [("orders_total", some 20), ("orders_region", some 2), ("visits_count", some 5), ("visits_day", some 7)],
       [("orders_total", some 20), ("orders_region", some 2), ("visits_count", some 6), ("visits_day", some 8)]] := by
  decide +kernel

/-- A filter on a column of the second query, in the answer. -/
example : (arbQuery arbEnvEx (itemsEx "left_outer") ["visits.count"] []).map
      (arbAnswer id (tablesEx false) [fun v => decide (v = some 5)]) = .ok
      [[("orders_total", some 20), ("orders_region", some 2), ("visits_count", some 5)]] := by
  decide +kernel

/-- The case of `C91_all_kinds`: three queries. The lines that only the second has stay when a left join follows, and are gone when
an inner join follows, although the third query has lines for the same areas. -/
example : (arbQuery arbEnvEx (itemsEx "full_outer" ++ [itemEx ["visits.count"] ["visits.area"] "visits.area" "left_outer"]) [] []).map
      (fun q => (arbAnswer id (tablesEx false) [] q).map (fun line => (under line "orders_region", under line "visits_count"))) =
      .ok [(some 1, none), (some 2, some 5), (none, some 6), (none, some 6)] ∧
    (arbQuery arbEnvEx (itemsEx "full_outer" ++ [itemEx ["visits.count"] ["visits.area"] "visits.area" "inner"]) [] []).map
      (fun q => (arbAnswer id (tablesEx false) [] q).map (fun line => (under line "orders_region", under line "visits_count"))) =
      .ok [(some 2, some 5)] := by
  constructor <;> decide +kernel

/-- The first line when ordered by region, the largest first: that of region 2. -/
example : arbQuery arbEnvEx (itemsEx "left_outer") [] ["orders.region"] =
      .ok { mergedEx .left "left_outer" with orders := [("merged_query_0", "orders_region")] } ∧
    ArbPage .snowflake (fun a b => decide (a < b)) id (tablesEx false) [] [true] (some 1)
      { mergedEx .left "left_outer" with orders := [("merged_query_0", "orders_region")] }
      [[("orders_total", some 20), ("orders_region", some 2), ("visits_count", some 5)]] := by
  refine ⟨by decide +kernel, (arbRows id (tablesEx false) (mergedEx .left "left_outer")).reverse, ?_, ?_, ?_⟩
  · simp only [mergedEx, List.zip_nil_left, List.all_nil, List.filter_true]
    exact List.reverse_perm _
  · decide +kernel
  · decide +kernel

end ML
