import Verif.Dialects.Props
import Verif.Drill.PropsEx
/-
C89: concrete cases, and where warehouses differ.
-/
set_option autoImplicit false
namespace ML
open Spec

/-- Revenue by region where the key is below 4, having revenue above 6, best first (an example; it models no file in /repo). -/
def dialQ : Question := { ansQ with limit := none }

theorem dial_asked (w : Warehouse) : askedOrder w dialQ = [("revenue", true)] := by
  have h : askedOrder w dialQ = askedOrder .snowflake dialQ := rfl
  rw [h]
  decide +kernel

theorem dial_shows (w : Warehouse) : ShowsAll w dialQ :=
  ⟨rfl, rfl, by simp [dialQ, ansQ], by rw [dial_asked]; decide⟩

theorem dial_proper : Proper ansP dialQ [regionF] [revenueF] := ansQ_proper _ ⟨rfl, rfl, rfl, rfl⟩

theorem dial_groups (q : Question) : GroupsRows q [regionF] [revenueF] := .inr (by
  intro m hm d hd hpk
  rw [List.mem_singleton] at hd
  subst hd
  cases hpk)

theorem dial_orders (w : Warehouse) (q : Question) (h1 : askedOrder w q = [("revenue", true)]) (h2 : ∀ t, q.order ≠ .text t) (h3 : q.metrics = ["revenue"]) : OrdersRequested ansP w q := by
  refine ⟨h2, fun o ho => ?_⟩
  rw [h1, List.mem_singleton] at ho
  subst ho
  exact ⟨by decide, "revenue", by rw [h3]; simp, rfl⟩

theorem dial_set : SetOfViews ansDb ansP := by
  intro views views' h
  refine ⟨rfl, rfl, fun i => ?_⟩
  show i ∈ (if "orders" ∈ views then [9] else []) ↔ i ∈ (if "orders" ∈ views' then [9] else [])
  simp only [h "orders"]

theorem dial_answered (w : Warehouse) (s : Stmt) (hs : buildStmt ansP w dialQ = .ok s) : ∃ out, s.Answers ansDb out :=
  C55_answered ansP w dialQ s hs [regionF] [revenueF] dial_proper rfl (by decide +kernel) (fun _ => dial_orders w _ (dial_asked w) (by simp [dialQ, ansQ]) rfl) ansDb

/-- The hypotheses of C89 (a): Snowflake and BigQuery. -/
example : ∃ s s' out out', buildStmt ansP .snowflake dialQ = .ok s ∧ buildStmt ansP .bigquery dialQ = .ok s' ∧ s.Answers ansDb out ∧ s'.Answers ansDb out' ∧ out.Perm out' := by
  obtain ⟨s, hs⟩ := ok_of_isOk (x := buildStmt ansP .snowflake dialQ) (by decide +kernel)
  obtain ⟨s', hs'⟩ := ok_of_isOk (x := buildStmt ansP .bigquery dialQ) (by decide +kernel)
  obtain ⟨out, ho⟩ := dial_answered _ s hs
  obtain ⟨out', ho'⟩ := dial_answered _ s' hs'
  exact ⟨s, s', out, out', hs, hs', ho, ho', C89_lines _ _ _ _ s s' hs hs' _ _ dial_proper (by simp) (dial_groups _) (dial_shows _) (dial_shows _) ansP_labels
    (.inl (by simp [SameKind, CorrectsDoubleCounting])) _ dial_set out out' ho ho'⟩

/-- The hypotheses of C89 (a), second case: Snowflake and Trino, for a query on orders only. -/
example : ∃ s s' out out', buildStmt ansP .snowflake dialQ = .ok s ∧ buildStmt ansP .trino dialQ = .ok s' ∧ s.Answers ansDb out ∧ s'.Answers ansDb out' ∧ out.Perm out' := by
  obtain ⟨s, hs⟩ := ok_of_isOk (x := buildStmt ansP .snowflake dialQ) (by decide +kernel)
  obtain ⟨s', hs'⟩ := ok_of_isOk (x := buildStmt ansP .trino dialQ) (by decide +kernel)
  obtain ⟨out, ho⟩ := dial_answered _ s hs
  obtain ⟨out', ho'⟩ := dial_answered _ s' hs'
  refine ⟨s, s', out, out', hs, hs', ho, ho', C89_lines _ _ _ _ s s' hs hs' _ _ dial_proper (by simp) (dial_groups _) (dial_shows _) (dial_shows _) ansP_labels
    (.inr fun views _ f m hf hu => .inr (.inr ?_)) _ dial_set out out' ho ho'⟩
  have hmem : f ∈ ansTable.map Prod.snd := by
    rcases hu with hu | ⟨i, -, hi⟩
    · rw [List.mem_singleton] at hu
      subst hu
      decide +kernel
    · exact ansP_known hi
  have hall : ∀ f ∈ ansTable.map Prod.snd, ∀ m, f.sql = .measure m → m.pk = some ("orders.id", "orders.id") := by
    intro f hf m hm
    simp only [ansTable, List.map_cons, List.map_nil, List.mem_cons, List.not_mem_nil, or_false] at hf
    rcases hf with rfl | rfl | rfl | rfl <;> cases hm
    rfl
  exact ⟨"orders.id", "orders.id", hall f hmem m hf, rfl⟩

/-- Orders in detail (an example; it models no file in /repo). -/
def dialDetail : Question := { ansQ with dimensions := ["id", "region"], havings := [], havingNames := [], orderNames := [], order := .absent, limit := none }

/-- The hypotheses of C89 (c): Postgres and SQL Server. -/
example : ∃ s s' out out', buildStmt ansP .postgres dialDetail = .ok s ∧ buildStmt ansP .sqlServer dialDetail = .ok s' ∧ s.Answers ansDb out ∧ s'.Answers ansDb out' ∧
    out.Perm out' := by
  obtain ⟨s, hs⟩ := ok_of_isOk (x := buildStmt ansP .postgres dialDetail) (by decide +kernel)
  obtain ⟨s', hs'⟩ := ok_of_isOk (x := buildStmt ansP .sqlServer dialDetail) (by decide +kernel)
  have hn : ¬ GroupsRows dialDetail [idF, regionF] [revenueF] := by
    rintro (h | h)
    · cases h
    · exact h revenueF rfl idF (by simp) rfl rfl
  have hp : Proper ansP dialDetail [idF, regionF] [revenueF] :=
    ⟨.cons (by decide +kernel) (.cons (by decide +kernel) .nil), .cons (by decide +kernel) .nil, by simp [idF, regionF], by simp [revenueF], ⟨trivial, trivial⟩, trivial⟩
  obtain ⟨out, ho⟩ := C55_answered ansP .postgres _ s hs [idF, regionF] [revenueF] hp rfl (by decide +kernel) (fun h => absurd h hn) ansDb
  obtain ⟨out', ho'⟩ := C55_answered ansP .sqlServer _ s' hs' [idF, regionF] [revenueF] hp rfl (by decide +kernel) (fun h => absurd h hn) ansDb
  refine ⟨s, s', out, out', hs, hs', ho, ho', C89_detail _ _ _ _ s s' hs hs' _ _ hp hn rfl (by decide +kernel) rfl ?_ _ dial_set out out' ho ho'⟩
  intro views _ i hi f hf
  have h1 : i ≠ 1 := by
    rcases hi with hi | ⟨l, hl, hi⟩
    · have hi : i ∈ (if "orders" ∈ views then [9] else []) := hi
      split at hi
      · rw [List.mem_singleton] at hi; omega
      · cases hi
    · have hl : l ∈ [({ field := some "id", first := 0 } : Leaf)] := hl
      rw [List.mem_singleton] at hl
      subst hl
      simp at hi
      omega
  have h2 : dialDetail.fieldOf i = "id" := if_neg h1
  rw [h2] at hf
  have h3 : ansP.get "id" = .ok idF := by decide +kernel
  rw [h3] at hf
  cases hf
  exact ⟨_, rfl⟩

/-- The regions with revenue above 50 (an example; it models no file in /repo). -/
def dialGroup : Question := { dialQ with groupFilters := [ansG] }

theorem dial_group_answered (w : Warehouse) (s : Stmt) (hs : buildStmt ansP w dialGroup = .ok s) : ∃ out, s.Answers ansDb out := by
  refine C56_answered ansP w dialGroup s hs [regionF] [revenueF] (ansQ_proper _ ⟨rfl, rfl, rfl, rfl⟩) ansG rfl (by decide +kernel)
    (fun _ => dial_orders w _ (dial_asked w) (by simp [dialGroup, dialQ, ansQ]) rfl) (by decide) regionF (by decide +kernel) ansDb ?_
  rintro views ⟨fs, hn, -, hv⟩
  refine (hv "orders").mpr ?_
  cases hn with
  | @cons _ f _ fs h1 h2 =>
    have : f = revenueF := by
      have h3 : ansP.get "revenue" = .ok revenueF := by decide +kernel
      have h1 : ansP.get "revenue" = .ok f := h1
      rw [h3] at h1
      cases h1
      rfl
    exact ⟨f, by simp, by rw [this]; rfl⟩

/-- The hypotheses of C89 (d): Redshift and DuckDB. -/
example : ∃ s s' out out', buildStmt ansP .redshift dialGroup = .ok s ∧ buildStmt ansP .duckDb dialGroup = .ok s' ∧ s.Answers ansDb out ∧ s'.Answers ansDb out' ∧ out.Perm out' := by
  obtain ⟨s, hs⟩ := ok_of_isOk (x := buildStmt ansP .redshift dialGroup) (by decide +kernel)
  obtain ⟨s', hs'⟩ := ok_of_isOk (x := buildStmt ansP .duckDb dialGroup) (by decide +kernel)
  obtain ⟨out, ho⟩ := dial_group_answered _ s hs
  obtain ⟨out', ho'⟩ := dial_group_answered _ s' hs'
  have hn : ∀ w, ∀ o ∈ askedOrder w dialGroup, o.1 ≠ "__DEFAULT__" := by
    intro w
    have : askedOrder w dialGroup = [("revenue", true)] := dial_asked w
    rw [this]
    decide
  exact ⟨s, s', out, out', hs, hs', ho, ho', C89_group_filter _ _ _ _ s s' hs hs' _ _ (ansQ_proper _ ⟨rfl, rfl, rfl, rfl⟩) (by simp) (dial_groups _) ansG rfl rfl
    (by simp [dialGroup, dialQ, ansQ]) (hn _) (hn _) ansP_labels (by simp [SameKind, CorrectsDoubleCounting]) _ dial_set out out' ho ho'⟩

/-- C89 (e): without those conditions warehouses differ. One order of 10, on two rows of the FROM: Snowflake's revenue is 10, Databricks' is 20. (The hypotheses of C89 (b) without
the last one.) -/
theorem C89_differs : ∃ (P : AnsProject) (q : Question) (s s' : Stmt) (ms : List AnsField) (D : Db (Nat × Nat × Nat × Nat)) (out out' : List (List Val)),
    buildStmt P .snowflake q = .ok s ∧ buildStmt P .databricks q = .ok s' ∧ Proper P q [] ms ∧ q.groupFilters = [] ∧ q.limit ≠ some 0 ∧ SetOfViews D P ∧
    s.Answers D out ∧ s'.Answers D out' ∧ D.rows = (fun _ => [(1, 1, 7, 10), (1, 2, 7, 10)]) ∧ out = [[some 1, some 10]] ∧ out' = [[some 1, some 20]] := by
  obtain ⟨s, hs⟩ := ok_of_isOk (x := buildStmt (drillP .doesNotExist) .snowflake (drillQ [])) (by decide +kernel)
  obtain ⟨s', hs'⟩ := ok_of_isOk (x := buildStmt (drillP .doesNotExist) .databricks (drillQ [])) (by decide +kernel)
  obtain ⟨hp, -, -⟩ := drill_proper .doesNotExist
  have hno : askedOrder .databricks (drillQ []) = [] := by decide +kernel
  obtain ⟨out, ho⟩ := C55_answered _ _ _ s hs _ _ hp rfl (by decide +kernel) (fun _ => drill_orders _ _) (drillDb [(1, 1, 7, 10), (1, 2, 7, 10)])
  obtain ⟨out', ho'⟩ := C55_answered _ _ _ s' hs' _ _ hp rfl (by decide +kernel) (fun _ => ⟨by simp [drillQ], fun o h => by rw [hno] at h; cases h⟩) (drillDb [(1, 1, 7, 10), (1, 2, 7, 10)])
  have value : ∀ (w : Warehouse) (t : Stmt) (o : List (List Val)), buildStmt (drillP .doesNotExist) w (drillQ []) = .ok t → t.Answers (drillDb [(1, 1, 7, 10), (1, 2, 7, 10)]) o →
      o = [[drillBuyers, drillRevenue].map (fun m => valueOf (drillDb [(1, 1, 7, 10), (1, 2, 7, 10)]).engine w .doesNotExist m
        (([(1, 1, 7, 10), (1, 2, 7, 10)] : List (Nat × Nat × Nat × Nat)).filter (fun _ => true)))] := by
    intro w t o ht hto
    obtain ⟨views, p, hv, hp1, h1, -⟩ := C55_total _ _ _ t ht _ hp rfl (by simp [drillQ]) _ o hto
    rw [having_none rfl] at h1
    have hpt : p = fun _ => true := by
      funext r
      refine (hp1 r).mpr ⟨fun i hi => ?_, fun v hv => ?_⟩
      · exact absurd (show i ∈ [] from hi) List.not_mem_nil
      · exact absurd (show v ∈ [] from hv) List.not_mem_nil
    rw [hpt] at h1
    exact h1 trivial
  refine ⟨drillP .doesNotExist, drillQ [], s, s', [drillBuyers, drillRevenue], _, out, out', hs, hs', hp, rfl, by simp [drillQ], fun _ _ _ => ⟨rfl, rfl, fun _ => Iff.rfl⟩, ho, ho', rfl, ?_, ?_⟩
  · rw [value _ s out hs ho]
    decide +kernel
  · rw [value _ s' out' hs' ho']
    decide +kernel

/-- The hypotheses of C89 (b): Snowflake and Postgres, with the same orders. -/
example : ∃ s s' out out', buildStmt (drillP .doesNotExist) .snowflake (drillQ []) = .ok s ∧ buildStmt (drillP .doesNotExist) .postgres (drillQ []) = .ok s' ∧
    s.Answers (drillDb [(1, 1, 7, 10), (1, 2, 7, 10)]) out ∧ s'.Answers (drillDb [(1, 1, 7, 10), (1, 2, 7, 10)]) out' ∧ out = out' := by
  obtain ⟨s, hs⟩ := ok_of_isOk (x := buildStmt (drillP .doesNotExist) .snowflake (drillQ [])) (by decide +kernel)
  obtain ⟨s', hs'⟩ := ok_of_isOk (x := buildStmt (drillP .doesNotExist) .postgres (drillQ [])) (by decide +kernel)
  obtain ⟨hp, -, -⟩ := drill_proper .doesNotExist
  have hno : askedOrder .postgres (drillQ []) = [] := by decide +kernel
  obtain ⟨out, ho⟩ := C55_answered _ _ _ s hs _ _ hp rfl (by decide +kernel) (fun _ => drill_orders _ _) (drillDb [(1, 1, 7, 10), (1, 2, 7, 10)])
  obtain ⟨out', ho'⟩ := C55_answered _ _ _ s' hs' _ _ hp rfl (by decide +kernel) (fun _ => ⟨by simp [drillQ], fun o h => by rw [hno] at h; cases h⟩) (drillDb [(1, 1, 7, 10), (1, 2, 7, 10)])
  exact ⟨s, s', out, out', hs, hs', ho, ho', C89_total _ _ _ _ s s' hs hs' _ hp rfl (by simp [drillQ]) (.inl (by simp [SameKind, CorrectsDoubleCounting])) _
    (fun _ _ _ => ⟨rfl, rfl, fun _ => Iff.rfl⟩) out out' ho ho'⟩

end ML
