import Verif.MergeWhole.PropsRows
/-
C78: a project, a database and a merged query that meet the hypotheses of C78_rows_partial.
-/
set_option autoImplicit false
namespace ML
open Spec

/-- The fields as the statements read them: all metrics are sums. (an example; it models no file in /repo) -/
def zFld (x : PField) : AnsField :=
  if x.measure then ⟨x.view, x.name, false,
    .measure { type := .sum, sql := x.id, pk := some (x.view ++ ".id", x.view ++ ".id"), distinctKey := x.view ++ ".id" }⟩
  else ⟨x.view, (zDimOf x).short, false, .dimension x.id⟩

/-- (an example; it models no file in /repo) -/
def zP : AnsProject :=
  ⟨ansGet ([dRevenue, dOrders, dSessions, dOrderDate, dSessionDate, dRegion, dArea, zStore].map (fun x => (x.id, zFld x))),
    fun vs => .key (if "orders" ∈ vs then "orders.id" else "sessions.id"), fun _ => []⟩

/-- The filter of the query compares the region of an order (comparison 0) or the area of a session (comparison 1). (an example; it models no
file in /repo) -/
def zConds (ws : List MWhere) : List FObj × List String :=
  match ws with
  | [.cond f _] => ([.leaf { field := some f, first := if f = "orders.region" then 0 else 1 }], [f])
  | _ => ([], [])

/-- (an example; it models no file in /repo) -/
def zCondField (i : ℕ) : String := if i = 0 then "orders.region" else "sessions.area"

/-- Rows are the value of all dimensions and an amount. (an example; it models no file in /repo) -/
def zData : Db (ℕ × ℕ) where
  rows := fun vs => if "orders" ∈ vs then [(1, 10), (2, 5), (2, 7)] else [(2, 4), (3, 1), (3, 2)]
  tables := fun vs => vs
  engine := ⟨fun r s => if s = "orders.count" ∨ s = "orders.revenue" ∨ s = "sessions.count" then some (r.2 : ℚ) else some (r.1 : ℚ), fun _ => 0⟩
  test := fun _ v => match v with
    | none => .u
    | some x => if x < 3 then .t else .f

theorem zRead : ReadBy zEnv zMetrics zHaving zDims zDimOf zColumn zP false zFld where
  dims := by
    intro h x hs hx
    rcases zDimension h hs x hx with rfl | rfl | rfl | rfl | rfl <;> exact ⟨by decide +kernel, by decide +kernel, _, rfl⟩
  columns := by
    intro f hf
    rcases zNeeded f hf with rfl | rfl | rfl <;> exact ⟨by decide +kernel, by decide +kernel, _, rfl⟩
  grouped := by
    right
    intro h x f hs hx _ _ hpk
    rcases zDimension h hs x hx with rfl | rfl | rfl | rfl | rfl <;> exact absurd hpk (by decide)

theorem zWritten : ∃ c plan, resolveMerged (writeSub zP .snowflake zConds zCondField false) zEnv false zMetrics zHaving zDims
      [.cond "orders.region" "= north"] true = .ok c ∧ derivePlan zEnv zMetrics zHaving zDims [.cond "orders.region" "= north"] = .ok plan ∧
    plan.where_ = [("orders_order__subquery_0", [.cond "orders.region" "= north"]), ("sessions_session__subquery_4", [.cond "sessions.area" "= north"])] ∧
    ∃ s, mergedStatement (fun _ _ => .error .query) (fun _ => .error .query) 1 (c.toDef zDimOf zColumn [] [] (fun _ => "") (some 10)) = .ok s := by
  have h1 : (match resolveMerged (writeSub zP .snowflake zConds zCondField false) zEnv false zMetrics zHaving zDims
      [.cond "orders.region" "= north"] true with
    | .ok c => (match mergedStatement (fun _ _ => .error .query) (fun _ => .error .query) 1 (c.toDef zDimOf zColumn [] [] (fun _ => "") (some 10)) with
      | .ok _ => true | .error _ => false)
    | .error _ => false) = true := by decide +kernel
  have h2 : (match derivePlan zEnv zMetrics zHaving zDims [.cond "orders.region" "= north"] with
    | .ok plan => plan.where_
    | .error _ => []) = [("orders_order__subquery_0", [.cond "orders.region" "= north"]), ("sessions_session__subquery_4", [.cond "sessions.area" "= north"])] := by
    with_unfolding_all rfl
  cases hc : resolveMerged (writeSub zP .snowflake zConds zCondField false) zEnv false zMetrics zHaving zDims
      [.cond "orders.region" "= north"] true with
  | error e => rw [hc] at h1; cases h1
  | ok c =>
    rw [hc] at h1
    cases hd : derivePlan zEnv zMetrics zHaving zDims [.cond "orders.region" "= north"] with
    | error e => rw [hd] at h2; cases h2
    | ok plan =>
      rw [hd] at h2
      refine ⟨c, plan, rfl, rfl, h2, ?_⟩
      simp only at h1
      split at h1
      · rename_i s hs; exact ⟨s, hs⟩
      · cases h1

theorem zNever (h : String) (ws : List MWhere) (q : Question) (ds : List AnsField) (views : List String)
    (hs : SubQuery zEnv zMetrics zHaving h) (ha : SubAsksFor zEnv zMetrics zHaving zDims zConds zCondField false zFld ws h q ds) :
    NoNulls zP .snowflake zData views q ds := by
  intro r _ _ f hf
  obtain ⟨xs, fs, hxs, _, _, rfl, _⟩ := ha
  obtain ⟨x, hx, rfl⟩ := List.mem_map.mp hf
  obtain ⟨j, hj⟩ := List.getElem?_of_mem hx
  obtain ⟨dd, hdd, g, hg, hcx⟩ := forall₂_at hxs j x hj
  rcases zDimension h hs x ⟨dd, List.mem_of_getElem? hdd, g, hg, hcx⟩ with rfl | rfl | rfl | rfl | rfl <;>
    simp [zFld, dOrderDate, dSessionDate, dRegion, dArea, zStore, zData, valueOf]

/-- All hypotheses of C78_tables and C78_rows_partial are met together, and the merged statement is answered. -/
example (W : MWarehouse ℚ) : ∃ (c : MergedConfig Stmt) (plan : Plan) (s : MStmt) (db : String → List (MRow ℚ)) (out : List (List Val)),
    resolveMerged (writeSub zP .snowflake zConds zCondField false) zEnv false zMetrics zHaving zDims [.cond "orders.region" "= north"] true = .ok c ∧
    derivePlan zEnv zMetrics zHaving zDims [.cond "orders.region" "= north"] = .ok plan ∧ s.Answers W db out ∧
    (∀ n st, (n, st) ∈ c.queries → ∃ o, st.Answers zData o ∧
      db n = o.map (namedRow (subColumns (c.toDef zDimOf zColumn [] [] (fun _ => "") (some 10)) n))) ∧
    ∃ (ks : List (List ℚ)) (lines : List (List Val)), ks.Nodup ∧ lines.length = ks.length ∧ LimitedTo (some 10) lines out := by
  obtain ⟨c, plan, hc, hplan, hw, s, hs⟩ := zWritten
  have hwh : ∀ h ws, dictGet plan.where_ h = some ws → WellFormedFilters (zConds ws).1 := by
    intro h ws hws
    rw [hw] at hws
    have := dictGet_mem hws
    simp only [List.mem_cons, Prod.mk.injEq, List.not_mem_nil, or_false] at this
    rcases this with ⟨_, rfl⟩ | ⟨_, rfl⟩ <;> exact ⟨trivial, trivial⟩
  obtain ⟨db, hdb⟩ := C78_tables zP .snowflake zData zConds zCondField false zEnv zMetrics zHaving zDims _ true c plan hplan hc zPlain zTwo zTidy zDiffer
    zDimOf zColumn zColumns zFld zRead hwh (by
      intro f hf
      have : zP.get "__DEFAULT__" = .error .query := by decide +kernel
      rw [this] at hf
      cases hf) [] [] (fun _ => "") (some 10) _ rfl
  have hma : MergedApart (c.toDef zDimOf zColumn [] [] (fun _ => "") (some 10)) := ⟨by rintro m ⟨⟩, by rintro m ⟨⟩, by rintro m ⟨⟩⟩
  have hon : OnMetrics (fun i => ((fun _ => .error .query : String → Res SMetric) ((fun _ => "" : ℕ → String) i)).map SMetric.column)
      (c.toDef zDimOf zColumn [] [] (fun _ => "") (some 10)) := by
    intro l hl
    simp [MergedConfig.toDef, leavesList] at hl
  have hwf : WellFormedFilters ([] : List FObj) := by simp [WellFormedFilters]
  obtain ⟨m1, m2, m3, m4, m5⟩ := C78_match _ zEnv zMetrics zHaving zDims _ true c hc zPlain zTwo zTidy zDiffer zFits zDimOf zColumn zColumns [] [] (fun _ => "") (some 10)
  obtain ⟨name, DF, hall⟩ := rows_ask zP .snowflake zData zConds zCondField false zEnv zMetrics zHaving zDims _ true c plan hplan hc zPlain zTwo zTidy zDiffer
    zDimOf zColumn zColumns zFld zRead hwh [] [] (fun _ => "") (some 10)
  have hsub : ∀ n ∈ c.hashes, (∀ t ∈ db n, ∀ v ∈ keyOf (c.toDef zDimOf zColumn [] [] (fun _ => "") (some 10)).src n t, v ≠ none) ∧
      ((db n).map (keyOf (c.toDef zDimOf zColumn [] [] (fun _ => "") (some 10)).src n)).Nodup := by
    intro n hn
    obtain ⟨k, hk, rfl⟩ := (DF.hashes n).mp hn
    obtain ⟨q, ds, ms, ws, st, _, h2, h3, _, h5, h6, _, _⟩ := hall k hk
    obtain ⟨o, ho, e⟩ := hdb _ _ h3
    have := C60_sub zP .snowflake zData _ db (name k) _ q ds ms (h5 db o ho e) (h6 (by simp [zDims])) m2
    exact ⟨this.2.2.2.1 (zNever k ws q ds _ hk h2), this.2.1⟩
  have hg3 : Grouped (c.toDef zDimOf zColumn [] [] (fun _ => "") (some 10)).src db 3 :=
    ⟨by omega, m3, m5 (by simp [zDims]), fun n hn => (hsub n hn).1, fun n hn => (hsub n hn).2⟩
  obtain ⟨out, hans⟩ := (C60_answered (fun _ _ => .error .query) (fun _ => .error .query) 1 (fun _ => []) (by rintro v m g ⟨⟩) _ (by rintro m ⟨⟩) s hs db 3
    hg3 m2 hma W (by rintro m ⟨⟩) hwf hon).mpr (.inr (by
      intro l hl
      simp [MergedConfig.toDef, leavesList] at hl))
  obtain ⟨views, q, ds, ws, _, ks, line, lines, a1, _, _, _, a5, a6⟩ := C78_rows_partial zP .snowflake zData zConds zCondField false zEnv zMetrics zHaving zDims
    [.cond "orders.region" "= north"] true c plan hplan hc zPlain zTwo zTidy zDiffer zFits (by simp [zDims]) "orders.order" "sessions.session"
    (fun x hx => (zDate x).mp hx) zDimOf zColumn zColumns zFld zRead (by simp [StructuredList, Structured]) hwh
    (fun h ws q ds views hs _ ha _ => zNever h ws q ds views hs ha) [] [] (fun _ => "") (some 10) _ rfl db hdb
    (fun _ _ => .error .query) (fun _ => .error .query) 1 (fun _ => []) (by rintro v m g ⟨⟩) (by rintro m ⟨⟩) s hs hma W (by rintro m ⟨⟩)
    hwf hon (.inl (by simp)) out hans
  exact ⟨c, plan, s, db, out, hc, hplan, hans, hdb, ks, lines, a1, by rw [a5.length_eq, List.length_map], a6⟩

end ML
