import Verif.Answer.PropsMore
/-
C55, C56: the cases the property excludes, and concrete queries.
-/
set_option autoImplicit false
namespace ML
open Spec

section
variable {ρ : Type}

/-- C55 (g): a grouped query ordered by a field whose column is not among the requested ones is never answered. -/
theorem C55_order_unselected (P : AnsProject) (w : Warehouse) (q : Question) (s : Stmt) (hs : buildStmt P w q = .ok s) (ds ms : List AnsField)
    (hp : Proper P q ds ms) (hg : GroupsRows q ds ms) (ht : ∀ t, q.order ≠ .text t) (hn : ∀ o ∈ askedOrder w q, o.1 ≠ "__DEFAULT__")
    (o : String × Bool) (ho : o ∈ askedOrder w q) (f : AnsField) (hf : P.get o.1 = .ok f) (hl : ∀ g ∈ ds ++ ms, g.label ≠ f.label)
    (D : Db ρ) (out : List (List Val)) : ¬ s.Answers D out := by
  rintro ⟨rows, -, kept, groups, sel, lines, cols, -, -, -, -, hoc, -⟩
  obtain ⟨views, -, hb, -⟩ := buildStmt_ok hs
  obtain ⟨c, fs, hc, hfs, hgb, hob, -, -, -, -, -, -, hsel, -, -⟩ := buildBlock_ok hb
  have hgn := (groups_iff hc hp.dims hp.metrics).mpr hg
  have : fs = ds ++ ms := (getAll_names.mp hfs).unique (hp.dims.append hp.metrics)
  subst this
  have hse := groupSelect_ok (hsel hgn).1
  have hit := order_items hc hp hgn ht hn
  rw [← hob] at hit
  obtain ⟨it, hitm, f', hf', rfl⟩ := forall₂_mem_left hit ho
  rw [hf] at hf'
  cases hf'
  obtain ⟨col, -, hcol⟩ := forall₂_mem_left (mapM_forall₂ (by unfold Block.orderColumns at hoc; exact hoc)) hitm
  cases hco : columnOf s.block.select f.label with
  | none => simp only [hco, Option.map_none] at hcol; cases hcol
  | some ix =>
    obtain ⟨i, x⟩ := ix
    obtain ⟨h1, -⟩ := columnOf_some hco
    obtain ⟨g, hgm, hgl, -⟩ := forall₂_mem_right hse (List.mem_of_getElem? h1)
    exact hl g hgm hgl.symm

/-- C55 (h): on SQL Server and Synapse a limit of zero is no limit. -/
theorem C55_limit_zero (P : AnsProject) (w : Warehouse) (hw : w = .sqlServer ∨ w = .azureSynapse) (q : Question) (hq : q.limit = some 0) :
    buildStmt P w q = buildStmt P w { q with limit := none } := by
  have hlim : limitClause w q.limit = limitClause w none := by
    rw [hq]
    rcases hw with rfl | rfl <;> rfl
  have hb : ∀ views, buildBlock P w views q = buildBlock P w views { q with limit := none } := by
    intro views
    unfold buildBlock
    rw [hlim]
    rfl
  have hi : ∀ gs, buildInCtes P w q gs = buildInCtes P w { q with limit := none } gs := by
    intro gs
    induction gs with
    | nil => rfl
    | cons g gs ih =>
      rw [buildInCtes, buildInCtes, ih]
      rfl
  unfold buildStmt
  simp only [hb, hi]
  rfl

/-- C56 (f): which entities pass does not depend on the filters, the HAVING, the ordering or the limit of the query. -/
theorem C56_unfiltered (P : AnsProject) (w : Warehouse) (q q' : Question) (hf : q'.fieldOf = q.fieldOf) (g : GroupFilter) (d : AnsField)
    (views : List String) (D : Db ρ) (r : ρ) : EntityPasses D P w q g d views r ↔ EntityPasses D P w q' g d views r := by
  unfold EntityPasses cteQuestion
  rw [hf]

end

/-! ### A concrete project -/

/-- Orders with a region, an amount and a key; and customers with a city. -/
def ansTable : List (String × AnsField) :=
  [("region", ⟨"orders", "region", false, .dimension "orders.region"⟩),
   ("id", ⟨"orders", "id", true, .dimension "orders.id"⟩),
   ("revenue", ⟨"orders", "revenue", false,
     .measure { type := .sum, sql := "orders.amount", pk := some ("orders.id", "orders.id"), distinctKey := "orders.id" }⟩),
   ("city", ⟨"customers", "city", false, .dimension "customers.city"⟩)]

/-- Looking the name up in a table of fields. -/
def ansGet (table : List (String × AnsField)) (n : String) : Res AnsField :=
  match dictGet table n with
  | some f => .ok f
  | none => .error .query

/-- The project: all FROMs have the key of the orders, and orders carry an access filter (comparison 9). -/
def ansP : AnsProject := ⟨ansGet ansTable, fun _ => .key "orders.id", fun vs => if "orders" ∈ vs then [9] else []⟩

/-- Revenue by region where the key is below 4 (comparison 0), having revenue above 6 (comparison 1), best first, one line. -/
def ansQ : Question where
  metrics := ["revenue"]
  dimensions := ["region"]
  wheres := [.leaf { field := some "id", first := 0 }]
  havings := [.leaf { field := some "revenue", first := 1 }]
  whereNames := ["id"]
  havingNames := ["revenue"]
  orderNames := ["revenue"]
  groupFilters := []
  order := .json [("revenue", some "desc")]
  limit := some 1
  force := false
  fieldOf := fun i => if i = 1 then "revenue" else "id"

/-- Rows are key, region, amount. -/
def ansDb : Db (Nat × Nat × Nat) where
  rows := fun _ => [(1, 1, 10), (2, 1, 5), (3, 2, 7), (4, 2, 100), (5, 1, 1)]
  tables := fun vs => vs
  engine := ⟨fun r s => if s = "orders.id" then some (r.1 : ℚ) else if s = "orders.region" then some (r.2.1 : ℚ)
    else if s = "orders.amount" then some (r.2.2 : ℚ) else none, fun _ => 0⟩
  test := fun i v => match v with
    | none => .u
    | some x => if i = 0 then (if x < 4 then .t else .f) else if i = 1 then (if 6 < x then .t else .f)
      else if i = 2 then (if 50 < x then .t else .f) else (if x ≤ 4 then .t else .f)

theorem ok_of_isOk {α : Type} {x : Res α} (h : (match x with | .ok _ => true | .error _ => false) = true) : ∃ a, x = .ok a := by
  cases x with
  | ok a => exact ⟨a, rfl⟩
  | error e => cases h

def regionF : AnsField := ⟨"orders", "region", false, .dimension "orders.region"⟩
def revenueF : AnsField := ⟨"orders", "revenue", false,
  .measure { type := .sum, sql := "orders.amount", pk := some ("orders.id", "orders.id"), distinctKey := "orders.id" }⟩

def idF : AnsField := ⟨"orders", "id", true, .dimension "orders.id"⟩

theorem ansQ_proper (q : Question) (h : q.metrics = ["revenue"] ∧ q.dimensions = ["region"] ∧ q.wheres = ansQ.wheres ∧ q.havings = ansQ.havings) :
    Proper ansP q [regionF] [revenueF] := by
  obtain ⟨h1, h2, h3, h4⟩ := h
  refine ⟨?_, ?_, by simp [regionF], by simp [revenueF], ?_, ?_⟩
  · rw [h2]; exact .cons (by decide +kernel) .nil
  · rw [h1]; exact .cons (by decide +kernel) .nil
  · rw [h3]; exact ⟨trivial, trivial⟩
  · rw [h4]; exact ⟨trivial, trivial⟩

theorem ansP_known {n : String} {f : AnsField} (h : ansP.get n = .ok f) : f ∈ ansTable.map Prod.snd := by
  have h : ansGet ansTable n = .ok f := h
  unfold ansGet at h
  cases hd : dictGet ansTable n with
  | none => rw [hd] at h; cases h
  | some g =>
    rw [hd] at h
    cases h
    exact List.mem_map.mpr ⟨(n, f), dictGet_mem hd, rfl⟩

theorem ansP_labels : LabelsDiffer ansP := by
  intro n m f g hf hg hl
  have h1 := ansP_known hf
  have h2 := ansP_known hg
  revert hl
  have : ∀ f ∈ ansTable.map Prod.snd, ∀ g ∈ ansTable.map Prod.snd, f.label = g.label → f = g := by decide +kernel
  exact this f h1 g h2

/-- The hypotheses of C55 (a) and (d) hold of the example, so the answer is the table of the specification. -/
example : ∃ s out, buildStmt ansP .snowflake ansQ = .ok s ∧ s.Answers ansDb out ∧
    ∃ views lines, QueryViews ansP ansQ views ∧
      IsTable (ansDb.rows views) (PassesWhere ansDb ansP .snowflake views ansQ)
        (fun r => [regionF].map (fun d => valueOf ansDb.engine .snowflake (ansP.fpk views) d [r]))
        (fun G => [revenueF].map (fun m => valueOf ansDb.engine .snowflake (ansP.fpk views) m G))
        (PassesHaving ansDb ansP .snowflake views ansQ) 1 lines ∧ InOrder ansP .snowflake ansQ lines ∧ Limited (some 1) lines out := by
  obtain ⟨s, hs⟩ := ok_of_isOk (x := buildStmt ansP .snowflake ansQ) (by decide +kernel)
  have hp : Proper ansP ansQ [regionF] [revenueF] := ansQ_proper ansQ ⟨rfl, rfl, rfl, rfl⟩
  have hgr : GroupsRows ansQ [regionF] [revenueF] := .inr (by
    intro m hm d hd hpk
    rw [List.mem_singleton] at hd
    subst hd
    cases hpk)
  have hask : askedOrder .snowflake ansQ = [("revenue", true)] := by decide +kernel
  obtain ⟨out, ho⟩ := C55_answered ansP .snowflake ansQ s hs [regionF] [revenueF] hp rfl (by decide +kernel) (fun _ => by
    refine ⟨by simp [ansQ], fun o ho => ?_⟩
    rw [hask, List.mem_singleton] at ho
    subst ho
    exact ⟨by decide, "revenue", by simp [ansQ], rfl⟩) ansDb
  obtain ⟨views, lines, h1, h2, h3, h4⟩ := C55_table ansP .snowflake ansQ s hs [regionF] [revenueF] hp hgr (by simp) rfl ansP_labels
    (by simp [ansQ]) (by rw [hask]; decide) (.inr (by simp)) ansDb out ho
  exact ⟨s, out, hs, ho, views, lines, h1, h2, h3, h4⟩

/-- The hypotheses of C55 (c): with the key of the orders as dimension the query does not group. -/
example : ∃ s out, buildStmt ansP .postgres { ansQ with dimensions := ["id", "region"], havings := [], havingNames := [], orderNames := [], order := .absent } = .ok s ∧
    s.Answers ansDb out ∧ ¬ GroupsRows { ansQ with dimensions := ["id", "region"], havings := [], havingNames := [], orderNames := [], order := .absent }
      [idF, regionF] [revenueF] := by
  obtain ⟨s, hs⟩ := ok_of_isOk (x := buildStmt ansP .postgres
    { ansQ with dimensions := ["id", "region"], havings := [], havingNames := [], orderNames := [], order := .absent }) (by decide +kernel)
  have hn : ¬ GroupsRows { ansQ with dimensions := ["id", "region"], havings := [], havingNames := [], orderNames := [], order := .absent }
      [idF, regionF] [revenueF] := by
    rintro (h | h)
    · cases h
    · exact h revenueF rfl idF (by simp) rfl rfl
  obtain ⟨out, ho⟩ := C55_answered ansP .postgres _ s hs [idF, regionF] [revenueF]
    ⟨.cons (by decide +kernel) (.cons (by decide +kernel) .nil), .cons (by decide +kernel) .nil, by simp [idF, regionF], by simp [revenueF],
      ⟨trivial, trivial⟩, trivial⟩ rfl (by decide +kernel) (fun h => absurd h hn) ansDb
  exact ⟨s, out, hs, ho, hn⟩

/-- The hypotheses of C55 (g): ordered by the key, which is not requested, the query is built and never answered. -/
example : ∃ s, buildStmt ansP .snowflake { ansQ with orderNames := ["id"], order := .json [("id", none)] } = .ok s ∧
    ∀ (D : Db Nat) (out : List (List Val)), ¬ s.Answers D out := by
  obtain ⟨s, hs⟩ := ok_of_isOk (x := buildStmt ansP .snowflake { ansQ with orderNames := ["id"], order := .json [("id", none)] }) (by decide +kernel)
  have hask : askedOrder .snowflake { ansQ with orderNames := ["id"], order := .json [("id", none)] } = [("id", false)] := by decide +kernel
  refine ⟨s, hs, C55_order_unselected ansP .snowflake _ s hs [regionF] [revenueF] (ansQ_proper _ ⟨rfl, rfl, rfl, rfl⟩) (.inr ?_) (by simp)
    (by rw [hask]; decide) ("id", false) (by rw [hask]; simp) idF (by decide +kernel) (by decide +kernel)⟩
  intro m hm d hd hpk
  rw [List.mem_singleton] at hd
  subst hd
  cases hpk

/-- A filter that keeps the regions with revenue above 50 (comparison 2). -/
def ansG : GroupFilter := ⟨"revenue", "region", 2⟩

/-- The hypotheses of C56 (a), (b) and (e). -/
example : ∃ s out, buildStmt ansP .bigquery { ansQ with groupFilters := [ansG] } = .ok s ∧ s.Answers ansDb out ∧
    GroupsRows { ansQ with groupFilters := [ansG] } [regionF] [revenueF] := by
  obtain ⟨s, hs⟩ := ok_of_isOk (x := buildStmt ansP .bigquery { ansQ with groupFilters := [ansG] }) (by decide +kernel)
  have hask : askedOrder .bigquery { ansQ with groupFilters := [ansG] } = [("revenue", true)] := by decide +kernel
  obtain ⟨out, ho⟩ := C56_answered ansP .bigquery _ s hs [regionF] [revenueF] (ansQ_proper _ ⟨rfl, rfl, rfl, rfl⟩) ansG rfl (by decide +kernel) (fun _ => by
    refine ⟨by simp [ansQ], fun o ho => ?_⟩
    rw [hask, List.mem_singleton] at ho
    subst ho
    exact ⟨by decide, "revenue", by simp [ansQ], rfl⟩) (by decide) regionF (by decide +kernel) ansDb (by
      rintro views ⟨fs, hn, -, hv⟩
      refine (hv "orders").mpr ?_
      cases hn with
      | @cons _ f _ fs h1 h2 =>
        have : f = revenueF := by
          have h3 : ansP.get "revenue" = .ok revenueF := by decide +kernel
          have h1 : ansP.get "revenue" = .ok f := h1
          rw [h3] at h1
          cases h1
          rfl
        exact ⟨f, by simp, by rw [this]; rfl⟩)
  refine ⟨s, out, hs, ho, .inr ?_⟩
  intro m hm d hd hpk
  rw [List.mem_singleton] at hd
  subst hd
  cases hpk

/-- On the example the rows of region 2 pass: 7 + 100 is above 50, although the query's own filter leaves out the order of 100; the row
with NULL region would not. -/
example : EntityPasses ansDb ansP .snowflake ansQ ansG regionF ["orders"] (3, 2, 7) := by
  refine ⟨2, [(3, 2, 7), (4, 2, 100)], by decide +kernel, by simp, ⟨fun r => decide (r.1 ≤ 4 ∧ r.2.1 = 2), ?_, by decide +kernel⟩, by decide +kernel⟩
  intro r hr
  have hr : r ∈ [(1, 1, 10), (2, 1, 5), (3, 2, 7), (4, 2, 100), (5, 1, 1)] := hr
  simp only [List.mem_cons, List.not_mem_nil, or_false] at hr
  rcases hr with rfl | rfl | rfl | rfl | rfl <;> decide +kernel

/-- The cities, for the regions that pass. -/
def cityQ : Question := ⟨[], ["city"], [], [], [], [], [], [ansG], .absent, none, false, ansQ.fieldOf⟩

/-- The hypotheses of C56 (d): a query on customers only, filtered by regions of orders. -/
example : ∃ s, buildStmt ansP .snowflake cityQ = .ok s ∧ ∀ out, ¬ s.Answers ansDb out := by
  obtain ⟨s, hs⟩ := ok_of_isOk (x := buildStmt ansP .snowflake cityQ) (by decide +kernel)
  refine ⟨s, hs, C56_missing_view ansP .snowflake _ s hs ansG rfl regionF (by decide +kernel) ansDb ?_⟩
  rintro views ⟨fs, hn, -, hv⟩ hm
  obtain ⟨f, hf, hfv⟩ := (hv "orders").mp hm
  cases hn with
  | @cons _ g _ gs h1 h2 =>
    cases h2
    rw [List.mem_singleton] at hf
    subst hf
    have h3 : ansP.get "city" = .ok ⟨"customers", "city", false, .dimension "customers.city"⟩ := by decide +kernel
    have h1 : ansP.get "city" = .ok f := h1
    rw [h3] at h1
    cases h1
    exact absurd hfv (by decide)

/-! ### Equal column names -/

/-- The fields of a view `order` with `line_total` and a view `order_line` with `total`: both columns are called `order_line_total`. -/
def sameTable : List (String × AnsField) :=
  [("order.id", ⟨"order", "id", true, .dimension "order.id"⟩),
   ("order.amount", ⟨"order", "amount", false,
     .measure { type := .sum, sql := "order.amount", pk := some ("order.id", "order.id"), distinctKey := "order.id" }⟩),
   ("order.line_total", ⟨"order", "line_total", false, .dimension "order.line_total"⟩),
   ("order_line.total", ⟨"order_line", "total", false, .dimension "order_line.total"⟩)]

def sameP : AnsProject := ⟨ansGet sameTable, fun _ => .key "order.id", fun _ => []⟩

/-- A question without filters. -/
def sameQ (metrics dimensions : List String) : Question :=
  ⟨metrics, dimensions, [], [], [], [], [], [], .absent, none, false, fun _ => ""⟩

/-- C55 (i), against the full statement: two different fields with one column name. Without grouping the second column is dropped: four fields are
requested and three columns are selected. Grouped on BigQuery, the query is built and never answered. -/
theorem C55_same_label :
    (∃ s, buildStmt sameP .snowflake (sameQ ["order.amount"] ["order.id", "order.line_total", "order_line.total"]) = .ok s ∧
      s.block.select = [(.row "order.id", "order_id"), (.row "order.line_total", "order_line_total"), (.row "order.amount", "order_amount")]) ∧
    ∃ s, buildStmt sameP .bigquery (sameQ ["order.amount"] ["order.line_total", "order_line.total"]) = .ok s ∧
      ∀ (D : Db Nat) (out : List (List Val)), ¬ s.Answers D out := by
  constructor
  · have h : (match buildStmt sameP .snowflake (sameQ ["order.amount"] ["order.id", "order.line_total", "order_line.total"]) with
        | .ok s => some s.block.select
        | .error _ => none) =
        some [(.row "order.id", "order_id"), (.row "order.line_total", "order_line_total"), (.row "order.amount", "order_amount")] := by decide +kernel
    cases hb : buildStmt sameP .snowflake (sameQ ["order.amount"] ["order.id", "order.line_total", "order_line.total"]) with
    | error e => rw [hb] at h; cases h
    | ok s => rw [hb] at h; exact ⟨s, rfl, Option.some.inj h⟩
  · have h : (match buildStmt sameP .bigquery (sameQ ["order.amount"] ["order.line_total", "order_line.total"]) with
        | .ok s => (s.block.groupBy.map (fun ts => ts.mapM s.block.groupExpr), s.block.groupBy)
        | .error _ => (none, none)) = (some none, some ["order_line_total", "order_line_total"]) := by decide +kernel
    cases hb : buildStmt sameP .bigquery (sameQ ["order.amount"] ["order.line_total", "order_line.total"]) with
    | error e => rw [hb] at h; cases h
    | ok s =>
      rw [hb] at h
      simp only [Prod.mk.injEq] at h
      refine ⟨s, rfl, ?_⟩
      rintro D out ⟨rows, -, kept, groups, sel, lines, cols, -, hg, -⟩
      unfold Block.Groups at hg
      rw [h.2] at hg
      obtain ⟨sqls, hm, -⟩ := hg
      have h1 := h.1
      rw [h.2, Option.map_some, hm] at h1
      cases h1

end ML
