import Verif.MergeWhole.Sample
/-
C78: from the plan of a merged query to the lines of its answer.
-/
set_option autoImplicit false
namespace ML
open Spec

section
variable {Q : Type} {V : Type} [DecidableEq V]

/-- C78 (f): the sub-queries of a resolved query are fit for the statement that joins them: at each place their dimensions are the same
column everywhere or mapped to each other (so that they can be joined on), all have as many dimensions as the query, and each metric is a
column of one of them. -/
theorem C78_match (write : SubAsk → Res (Q × Warehouse)) (env : PlanEnv) (metrics having dimensions : List String) (wheres : List MWhere)
    (semicolon : Bool) (c : MergedConfig Q) (h : resolveMerged write env false metrics having dimensions wheres semicolon = .ok c)
    (hp : PlainQuery env metrics having dimensions) (two : TwoDates env metrics having) (ht : TidyQuery env metrics having dimensions)
    (hdiff : DimensionsDiffer env metrics having dimensions) (hfit : FitsTogether env metrics having dimensions)
    (dim : PField → MDim) (column : PField → String) (hcol : ColumnsApart env metrics having dimensions dim column)
    (merged : List SMetric) (hav : List FObj) (fieldOf : ℕ → String) (limit : Option ℕ) :
    DimensionsMatch (c.toDef dim column merged hav fieldOf limit).src ∧ MetricsApart (c.toDef dim column merged hav fieldOf limit) ∧
    c.hashes.Nodup ∧ 2 ≤ c.hashes.length ∧
    (dimensions ≠ [] → ∀ n ∈ c.hashes, ∃ l, dictGet (c.toDef dim column merged hav fieldOf limit).src.dims n = some l ∧ l.length = dimensions.length) := by
  obtain ⟨name, D⟩ := def_facts write wheres semicolon c h hp two ht hdiff dim column merged hav fieldOf limit
  refine ⟨D.matches hp ht hdiff hfit hcol, D.apart hcol, D.nodup, ?_, ?_⟩
  · obtain ⟨f, g, hf, hg, hne⟩ := two
    obtain ⟨c1, hc1, _⟩ := D.other ""
    obtain ⟨c2, hc2, hne⟩ := D.other c1
    obtain ⟨s1, hs1⟩ := D.query c1 hc1
    obtain ⟨s2, hs2⟩ := D.query c2 hc2
    have h1 : name s1 ∈ c.hashes := (D.hashes _).mpr ⟨s1, ⟨c1, hc1, hs1⟩, rfl⟩
    have h2 : name s2 ∈ c.hashes := (D.hashes _).mpr ⟨s2, ⟨c2, hc2, hs2⟩, rfl⟩
    have hne' : name s1 ≠ name s2 := by
      intro e
      have := D.inj s1 s2 ⟨c1, hc1, hs1⟩ ⟨c2, hc2, hs2⟩ e
      subst this
      exact hne (ht.apart _ _ _ hc1 hc2 hs1 hs2)
    match hl : c.hashes, h1, h2 with
    | [], h1, _ => simp at h1
    | [a], h1, h2 =>
      simp only [List.mem_singleton] at h1 h2
      exact absurd (h1.trans h2.symm) hne'
    | _ :: _ :: _, _, _ => simp
  · intro hne n hn
    obtain ⟨k, hk, rfl⟩ := (D.hashes n).mp hn
    obtain ⟨l, _, hget, hall⟩ := D.dimsOf hk
    exact ⟨_, hget hne, by rw [List.length_map, hall.length_eq]⟩

/-- C78 (g): the answer. One line for each combination of dimension values that some sub-query has and that passes the filters on
metrics, with the metrics of that combination; at most `limit` lines. Missing for the full statement: what C60 misses too, NULL dimension
values, and combinations that are in two later sub-queries but not in the first (hypothesis `hsh`). -/
theorem C78_lines_partial (write : SubAsk → Res (Q × Warehouse)) (env : PlanEnv) (metrics having dimensions : List String) (wheres : List MWhere)
    (semicolon : Bool) (c : MergedConfig Q) (h : resolveMerged write env false metrics having dimensions wheres semicolon = .ok c)
    (hp : PlainQuery env metrics having dimensions) (two : TwoDates env metrics having) (ht : TidyQuery env metrics having dimensions)
    (hdiff : DimensionsDiffer env metrics having dimensions) (hfit : FitsTogether env metrics having dimensions) (hne : dimensions ≠ [])
    (dim : PField → MDim) (column : PField → String) (hcol : ColumnsApart env metrics having dimensions dim column)
    (merged : List SMetric) (hav : List FObj) (fieldOf : ℕ → String) (limit : Option ℕ) (d : MergedDef)
    (hd : d = c.toDef dim column merged hav fieldOf limit)
    (get : String → List Char → Res SMetric) (lookup : String → Res SMetric) (depth : ℕ) (pieces : SMetric → List Piece)
    (hget : ∀ v m g, get v m = .ok g → OrdinaryMetric pieces g) (hm : ∀ m ∈ merged, OrdinaryMetric pieces m)
    (s : MStmt) (hs : mergedStatement get lookup depth d = .ok s) (db : String → List (MRow V))
    (hnull : ∀ n ∈ c.hashes, ∀ t ∈ db n, ∀ v ∈ keyOf d.src n t, v ≠ none) (hgrp : ∀ n ∈ c.hashes, ((db n).map (keyOf d.src n)).Nodup)
    (h₀ : String) (rest : List String) (hh : c.hashes = h₀ :: rest)
    (hsh : ∀ k, ¬ PresentIn d.src db k h₀ → ∀ h ∈ rest, ∀ h' ∈ rest, PresentIn d.src db k h → PresentIn d.src db k h' → h = h')
    (hma : MergedApart d) (W : MWarehouse V)
    (hnames : ∀ m ∈ merged, ∀ t, formulaText get pieces depth m = some t → ∀ x ∈ W.names t, ∃ p ∈ d.metrics, x ∈ p.2)
    (hwf : WellFormedFilters hav) (hon : OnMetrics (fun i => (lookup (fieldOf i)).map SMetric.column) d)
    (hz : limit ≠ some 0 ∨ c.warehouse ≠ .sqlServer ∧ c.warehouse ≠ .azureSynapse)
    (out : List (List (Option V))) (hans : s.Answers W db out) :
    ∃ (ks : List (List V)) (line : List V → List (Option V)) (lines : List (List (Option V))), ks.Nodup ∧
      (∀ k, k ∈ ks ↔ (∃ n ∈ c.hashes, PresentIn d.src db k n) ∧
        PassesFilters W (formulaText get pieces depth) (fun i => (lookup (fieldOf i)).map SMetric.column) d db k) ∧
      (∀ k ∈ ks, List.Forall₂ (Shows W (formulaText get pieces depth) d db k) (s.select.map (·.2)) (line k)) ∧
      lines.Perm (ks.map line) ∧ LimitedTo limit lines out := by
  subst hd
  obtain ⟨h1, h2, h3, _, h5⟩ := C78_match write env metrics having dimensions wheres semicolon c h hp two ht hdiff hfit dim column hcol merged hav fieldOf limit
  exact C60_lines_partial get lookup depth pieces hget _ hm s hs db dimensions.length
    ⟨List.length_pos_of_ne_nil hne, h3, h5 hne, hnull, hgrp⟩ h₀ rest hh hsh h1 h2 hma W hnames hwf hon hz out hans

/-- C78 (h): when the metrics have two canonical dates there is nothing to be assumed about the combinations. -/
theorem C78_two (write : SubAsk → Res (Q × Warehouse)) (env : PlanEnv) (metrics having dimensions : List String) (wheres : List MWhere)
    (semicolon : Bool) (c : MergedConfig Q) (h : resolveMerged write env false metrics having dimensions wheres semicolon = .ok c)
    (hp : PlainQuery env metrics having dimensions) (two : TwoDates env metrics having) (ht : TidyQuery env metrics having dimensions)
    (hdiff : DimensionsDiffer env metrics having dimensions) (hfit : FitsTogether env metrics having dimensions) (hne : dimensions ≠ [])
    (date₁ date₂ : String) (hdates : ∀ x, MetricDate env metrics having x → x = date₁ ∨ x = date₂)
    (dim : PField → MDim) (column : PField → String) (hcol : ColumnsApart env metrics having dimensions dim column)
    (merged : List SMetric) (hav : List FObj) (fieldOf : ℕ → String) (limit : Option ℕ) (d : MergedDef)
    (hd : d = c.toDef dim column merged hav fieldOf limit)
    (get : String → List Char → Res SMetric) (lookup : String → Res SMetric) (depth : ℕ) (pieces : SMetric → List Piece)
    (hget : ∀ v m g, get v m = .ok g → OrdinaryMetric pieces g) (hm : ∀ m ∈ merged, OrdinaryMetric pieces m)
    (s : MStmt) (hs : mergedStatement get lookup depth d = .ok s) (db : String → List (MRow V))
    (hnull : ∀ n ∈ c.hashes, ∀ t ∈ db n, ∀ v ∈ keyOf d.src n t, v ≠ none) (hgrp : ∀ n ∈ c.hashes, ((db n).map (keyOf d.src n)).Nodup)
    (hma : MergedApart d) (W : MWarehouse V)
    (hnames : ∀ m ∈ merged, ∀ t, formulaText get pieces depth m = some t → ∀ x ∈ W.names t, ∃ p ∈ d.metrics, x ∈ p.2)
    (hwf : WellFormedFilters hav) (hon : OnMetrics (fun i => (lookup (fieldOf i)).map SMetric.column) d)
    (hz : limit ≠ some 0 ∨ c.warehouse ≠ .sqlServer ∧ c.warehouse ≠ .azureSynapse)
    (out : List (List (Option V))) (hans : s.Answers W db out) :
    ∃ (ks : List (List V)) (line : List V → List (Option V)) (lines : List (List (Option V))), ks.Nodup ∧
      (∀ k, k ∈ ks ↔ (∃ n ∈ c.hashes, PresentIn d.src db k n) ∧
        PassesFilters W (formulaText get pieces depth) (fun i => (lookup (fieldOf i)).map SMetric.column) d db k) ∧
      (∀ k ∈ ks, List.Forall₂ (Shows W (formulaText get pieces depth) d db k) (s.select.map (·.2)) (line k)) ∧
      lines.Perm (ks.map line) ∧ LimitedTo limit lines out := by
  obtain ⟨_, _, h3, h4, _⟩ := C78_match write env metrics having dimensions wheres semicolon c h hp two ht hdiff hfit dim column hcol merged hav fieldOf limit
  obtain ⟨name, D⟩ := def_facts write wheres semicolon c h hp two ht hdiff dim column merged hav fieldOf limit
  have hsub : ∃ a b, c.hashes = [a, b] := by
    have hle : ∀ l : List String, l.Nodup → (∀ n ∈ l, ∃ k, SubQuery env metrics having k ∧ n = name k) → l.length ≤ 2 := by
      intro l hl hin
      by_contra hgt
      match l, hl, hin, hgt with
      | [], _, _, hgt => simp at hgt
      | [_], _, _, hgt => simp at hgt
      | [_, _], _, _, hgt => simp at hgt
      | a :: b :: e :: _, hl, hin, _ =>
        obtain ⟨k1, ⟨d1, m1, q1⟩, rfl⟩ := hin a (by simp)
        obtain ⟨k2, ⟨d2, m2, q2⟩, rfl⟩ := hin b (by simp)
        obtain ⟨k3, ⟨d3, m3, q3⟩, rfl⟩ := hin e (by simp)
        simp only [List.nodup_cons, List.mem_cons, not_or] at hl
        obtain ⟨⟨n12, n13, _⟩, ⟨n23, _⟩, _⟩ := hl
        have key : ∀ {x y dx dy}, DateQuery env dx x → DateQuery env dy y → name x ≠ name y → dx ≠ dy := by
          rintro x y dx dy hx hy hn rfl
          exact hn (by rw [hx.unique hy])
        have e12 := key q1 q2 n12
        have e13 := key q1 q3 n13
        have e23 := key q2 q3 n23
        rcases hdates d1 m1 with rfl | rfl <;> rcases hdates d2 m2 with rfl | rfl <;> rcases hdates d3 m3 with rfl | rfl <;>
          first | exact e12 rfl | exact e13 rfl | exact e23 rfl
    have h2 := hle c.hashes h3 (fun n hn => (D.hashes n).mp hn)
    match hl : c.hashes with
    | [] => rw [hl] at h4; simp at h4
    | [_] => rw [hl] at h4; simp at h4
    | [a, b] => exact ⟨a, b, rfl⟩
    | _ :: _ :: _ :: _ => rw [hl] at h2; simp at h2
  obtain ⟨a, b, hab⟩ := hsub
  exact C78_lines_partial write env metrics having dimensions wheres semicolon c h hp two ht hdiff hfit hne dim column hcol merged hav fieldOf limit d hd
    get lookup depth pieces hget hm s hs db hnull hgrp a [b] hab
    (by simp only [List.mem_singleton]; rintro k - h rfl h' rfl - -; rfl) hma W hnames hwf hon hz out hans

end

/-! ### Examples -/

/-- (an example; it models no file in /repo) -/
def zWrite (a : SubAsk) : Res (SubAsk × Warehouse) := .ok (a, .snowflake)

/-- The query asks for a rate, a revenue, by date, region and store, with a filter that is mapped. -/
example : ∃ plan, derivePlan zEnv zMetrics zHaving zDims [.cond "orders.region" "= north"] = .ok plan ∧
    plan.metrics = [("orders_order__subquery_0", [dOrders, dRevenue]), ("sessions_session__subquery_4", [dSessions])] ∧
    plan.dims = [("orders_order__subquery_0", [dOrderDate, dRegion, zStore]), ("sessions_session__subquery_4", [dSessionDate, dArea, zStore])] :=
  ⟨_, rfl, by decide +kernel, by decide +kernel⟩

theorem zResolved : ∃ c, resolveMerged zWrite zEnv false zMetrics zHaving zDims [.cond "orders.region" "= north"] true = .ok c :=
  C78_answered zWrite zEnv zMetrics zHaving zDims _ true _ rfl zPlain zTwo zTidy zDiffer (fun _ _ _ _ => ⟨_, rfl⟩)

/-- The names users see, and the conditions on C78_places, C78_subqueries, C78_warehouse and C78_match are all met. -/
example : ∃ c, resolveMerged zWrite zEnv false zMetrics zHaving zDims [.cond "orders.region" "= north"] true = .ok c ∧
    c.hashes = ["orders_order__cte_subquery_0", "sessions_session__cte_subquery_1"] ∧ c.semicolon = true := by
  refine ⟨_, rfl, ?_, ?_⟩ <;> decide +kernel

example := C78_places zEnv zMetrics zHaving zDims [.cond "orders.region" "= north"] _ rfl zPlain zTwo zTidy zDiffer

example (c) (h : resolveMerged zWrite zEnv false zMetrics zHaving zDims [.cond "orders.region" "= north"] true = .ok c) :=
  C78_match zWrite zEnv zMetrics zHaving zDims _ true c h zPlain zTwo zTidy zDiffer zFits zDimOf zColumn zColumns [] [] (fun _ => "") none

/-- (an example; it models no file in /repo) -/
def zDb (n : String) : List (MRow ℚ) :=
  if n = "orders_order__cte_subquery_0" then
    [fun c => if c = "orders_count" then some 3 else if c = "orders_revenue" then some 70 else some 1,
     fun c => if c = "orders_count" then some 5 else if c = "orders_revenue" then none else some 2]
  else [fun c => if c = "sessions_count" then some 8 else some 2]

/-- All hypotheses of C78_two are met together: the rows above, a warehouse, and an answer of the statement. -/
example (W : MWarehouse ℚ) : ∃ (c : MergedConfig SubAsk) (s : MStmt) (out : List (List (Option ℚ))),
    resolveMerged zWrite zEnv false zMetrics zHaving zDims [.cond "orders.region" "= north"] true = .ok c ∧
    mergedStatement (fun _ _ => .error .query) (fun _ => .error .query) 1 (c.toDef zDimOf zColumn [] [] (fun _ => "") (some 10)) = .ok s ∧
    s.Answers W zDb out ∧
    ∃ (ks : List (List ℚ)) (line : List ℚ → List (Option ℚ)) (lines : List (List (Option ℚ))), ks.Nodup ∧
      (∀ k, k ∈ ks ↔ (∃ n ∈ c.hashes, PresentIn (c.toDef zDimOf zColumn [] [] (fun _ => "") (some 10)).src zDb k n) ∧ True) ∧
      lines.Perm (ks.map line) ∧ LimitedTo (some 10) lines out := by
  obtain ⟨c, hc⟩ := zResolved
  have hd : ∀ c', resolveMerged zWrite zEnv false zMetrics zHaving zDims [.cond "orders.region" "= north"] true = .ok c' →
      c'.hashes = ["orders_order__cte_subquery_0", "sessions_session__cte_subquery_1"] ∧
      (∃ s, mergedStatement (fun _ _ => .error .query) (fun _ => .error .query) 1 (c'.toDef zDimOf zColumn [] [] (fun _ => "") (some 10)) = .ok s) := by
    intro c' h
    injection h with h
    subst h
    exact ⟨by decide +kernel, _, rfl⟩
  obtain ⟨hh, s, hs⟩ := hd c hc
  obtain ⟨m1, m2, m3, m4, m5⟩ := C78_match zWrite zEnv zMetrics zHaving zDims _ true c hc zPlain zTwo zTidy zDiffer zFits zDimOf zColumn zColumns [] [] (fun _ => "") (some 10)
  have hkey : ∀ n ∈ c.hashes, ∃ l, l.length = 3 ∧ (∀ g ∈ l, g ∈ [zDimOf dOrderDate, zDimOf dRegion, zDimOf zStore, zDimOf dSessionDate, zDimOf dArea]) ∧
      dimsOf (c.toDef zDimOf zColumn [] [] (fun _ => "") (some 10)).src n = l := by
    obtain ⟨name, D⟩ := def_facts zWrite _ true c hc zPlain zTwo zTidy zDiffer zDimOf zColumn [] [] (fun _ => "") (some 10)
    intro n hn
    obtain ⟨k, hk, rfl⟩ := (D.hashes n).mp hn
    obtain ⟨l, e, _, hall⟩ := D.dimsOf hk
    refine ⟨_, by rw [List.length_map, ← hall.length_eq]; rfl, ?_, e⟩
    intro g hg
    obtain ⟨x, hx, rfl⟩ := List.mem_map.mp hg
    obtain ⟨j, hj⟩ := List.getElem?_of_mem hx
    obtain ⟨dd, hdd, f, hf, hcx⟩ := forall₂_at hall j x hj
    rcases zDimension k hk x ⟨dd, List.mem_of_getElem? hdd, f, hf, hcx⟩ with rfl | rfl | rfl | rfl | rfl <;> simp
  have hcols : ∀ g ∈ [zDimOf dOrderDate, zDimOf dRegion, zDimOf zStore, zDimOf dSessionDate, zDimOf dArea],
      g.column ≠ "orders_count" ∧ g.column ≠ "orders_revenue" ∧ g.column ≠ "sessions_count" := by decide +kernel
  have hnull : ∀ n ∈ c.hashes, ∀ t ∈ zDb n, ∀ v ∈ keyOf (c.toDef zDimOf zColumn [] [] (fun _ => "") (some 10)).src n t, v ≠ none := by
    intro n hn t htt v hv
    obtain ⟨l, _, hl, e⟩ := hkey n hn
    unfold keyOf at hv
    rw [e] at hv
    obtain ⟨g, hg, rfl⟩ := List.mem_map.mp hv
    obtain ⟨g1, g2, g3⟩ := hcols g (hl g hg)
    unfold zDb at htt
    split at htt <;> simp only [List.mem_cons, List.not_mem_nil, or_false] at htt
    · rcases htt with rfl | rfl <;> simp [g1, g2]
    · subst htt; simp [g3]
  have hgrp : ∀ n ∈ c.hashes, ((zDb n).map (keyOf (c.toDef zDimOf zColumn [] [] (fun _ => "") (some 10)).src n)).Nodup := by
    intro n hn
    obtain ⟨l, hlen, hl, e⟩ := hkey n hn
    unfold zDb
    split
    · simp only [List.map_cons, List.map_nil, List.nodup_cons, List.mem_singleton, List.not_mem_nil, not_false_eq_true, List.nodup_nil, and_true]
      unfold keyOf
      rw [e]
      match l, hlen, hl with
      | g :: _, _, hl =>
        obtain ⟨g1, g2, g3⟩ := hcols g (hl g (by simp))
        simp [g1, g2]
    · simp
  have hma : MergedApart (c.toDef zDimOf zColumn [] [] (fun _ => "") (some 10)) := ⟨by rintro m ⟨⟩, by rintro m ⟨⟩, by rintro m ⟨⟩⟩
  have hon : OnMetrics (fun i => ((fun _ => .error .query : String → Res SMetric) ((fun _ => "" : ℕ → String) i)).map SMetric.column)
      (c.toDef zDimOf zColumn [] [] (fun _ => "") (some 10)) := by
    intro l hl
    simp [MergedConfig.toDef, leavesList] at hl
  have hwf : WellFormedFilters ([] : List FObj) := by simp [WellFormedFilters]
  have hg3 : Grouped (c.toDef zDimOf zColumn [] [] (fun _ => "") (some 10)).src zDb 3 := ⟨by omega, m3, m5 (by simp [zDims]), hnull, hgrp⟩
  obtain ⟨out, hans⟩ := (C60_answered (fun _ _ => .error .query) (fun _ => .error .query) 1 (fun _ => []) (by rintro v m g ⟨⟩) _ (by rintro m ⟨⟩) s hs zDb 3
    hg3 m2 hma W (by rintro m ⟨⟩) hwf hon).mpr (.inr (by
      intro l hl
      simp [MergedConfig.toDef, leavesList] at hl))
  obtain ⟨ks, line, lines, a1, a2, a3, a4, a5⟩ := C78_two zWrite zEnv zMetrics zHaving zDims _ true c hc zPlain zTwo zTidy zDiffer zFits (by simp [zDims])
    "orders.order" "sessions.session" (fun x hx => (zDate x).mp hx) zDimOf zColumn zColumns [] [] (fun _ => "") (some 10) _ rfl
    (fun _ _ => .error .query) (fun _ => .error .query) 1 (fun _ => []) (by rintro v m g ⟨⟩) (by rintro m ⟨⟩) s hs zDb hnull hgrp hma W (by rintro m ⟨⟩)
    hwf hon (.inl (by simp)) out hans
  refine ⟨c, s, out, hc, hs, hans, ks, line, lines, a1, fun k => ?_, a4, a5⟩
  rw [a2 k]
  refine and_congr Iff.rfl ⟨fun _ => trivial, fun _ => ?_⟩
  intro b hb
  simp [MergedConfig.toDef, meanings] at hb

end ML
