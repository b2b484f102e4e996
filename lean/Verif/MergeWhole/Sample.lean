import Verif.MergeWhole.PropsMatch
/-
A project for the examples of C78: orders and sessions, which cannot be joined; a store joins to both, the region of an order is mapped
to the area of a session.
-/
set_option autoImplicit false
namespace ML
open Spec

/-- (an example; it models no file in /repo) -/
def zStore : PField := ⟨"stores.name", "stores", "name", none, false, none, ["subquery_0", "subquery_4"], false⟩

/-- (an example; it models no file in /repo) -/
def zEnv : PlanEnv :=
  tableEnv [("revenue", dRevenue), ("orders", dOrders), ("sessions", dSessions), ("rate", dRate), ("orders.order_date", dOrderDate),
      ("sessions.session_date", dSessionDate), ("orders.region", dRegion), ("sessions.area", dArea), ("stores.name", zStore)]
    [("orders.order", dOrderDate), ("sessions.session", dSessionDate)]
    [("orders.rate", [some dOrders, some dSessions])]
    [⟨"orders.region", "subquery_0", [⟨"sessions.area", "subquery_4"⟩]⟩, ⟨"sessions.area", "subquery_4", [⟨"orders.region", "subquery_0"⟩]⟩]

/-- (an example; it models no file in /repo) -/
def zMetrics : List String := ["rate", "revenue"]

/-- (an example; it models no file in /repo) -/
def zHaving : List String := ["revenue"]

/-- (an example; it models no file in /repo) -/
def zDims : List String := ["orders.order_date", "orders.region", "stores.name"]

theorem zNames : ∀ n m f g, zEnv.getField n = .ok f → zEnv.getField m = .ok g → f.id = g.id → f = g := by
  intro n m f g hn hm
  have h1 := table_mem hn
  have h2 := table_mem hm
  revert h1 h2
  simp only [List.mem_cons, List.not_mem_nil, or_false, Prod.mk.injEq]
  rintro (⟨_, rfl⟩ | ⟨_, rfl⟩ | ⟨_, rfl⟩ | ⟨_, rfl⟩ | ⟨_, rfl⟩ | ⟨_, rfl⟩ | ⟨_, rfl⟩ | ⟨_, rfl⟩ | ⟨_, rfl⟩) (⟨_, rfl⟩ | ⟨_, rfl⟩ | ⟨_, rfl⟩ | ⟨_, rfl⟩ | ⟨_, rfl⟩ | ⟨_, rfl⟩ | ⟨_, rfl⟩ | ⟨_, rfl⟩ | ⟨_, rfl⟩) <;> decide

theorem zNeeded (f : PField) (h : Needed zEnv zMetrics zHaving f) : f = dOrders ∨ f = dSessions ∨ f = dRevenue := by
  have := needed_mem _ _ _ _ h
  have e : neededList zEnv (zMetrics ++ zHaving) = [dOrders, dSessions, dRevenue, dRevenue] := by decide +kernel
  rw [e] at this
  simpa using this

theorem zOrders_needed : Needed zEnv zMetrics zHaving dOrders := ⟨"rate", by decide, dRate, rfl, .inr ⟨rfl, by decide +kernel⟩⟩

theorem zSessions_needed : Needed zEnv zMetrics zHaving dSessions := ⟨"rate", by decide, dRate, rfl, .inr ⟨rfl, by decide +kernel⟩⟩

theorem zDate (c : String) : MetricDate zEnv zMetrics zHaving c ↔ c = "orders.order" ∨ c = "sessions.session" := by
  constructor
  · rintro ⟨f, hf, e⟩
    rcases zNeeded f hf with rfl | rfl | rfl <;> injection e with e <;> subst e
    · exact .inl rfl
    · exact .inr rfl
    · exact .inl rfl
  · rintro (rfl | rfl)
    · exact ⟨_, zOrders_needed, rfl⟩
    · exact ⟨_, zSessions_needed, rfl⟩

theorem zDateQuery_orders (h : String) : DateQuery zEnv "orders.order" h ↔ h = "orders_order__subquery_0" := by
  have h0 : DateQuery zEnv "orders.order" "orders_order__subquery_0" := ⟨dOrderDate, "subquery_0", rfl, by rfl, by decide +kernel⟩
  exact ⟨fun hh => hh.unique h0, fun e => e ▸ h0⟩

theorem zDateQuery_sessions (h : String) : DateQuery zEnv "sessions.session" h ↔ h = "sessions_session__subquery_4" := by
  have h0 : DateQuery zEnv "sessions.session" "sessions_session__subquery_4" := ⟨dSessionDate, "subquery_4", rfl, by rfl, by decide +kernel⟩
  exact ⟨fun hh => hh.unique h0, fun e => e ▸ h0⟩

theorem zSub (h : String) : SubQuery zEnv zMetrics zHaving h ↔ h = "orders_order__subquery_0" ∨ h = "sessions_session__subquery_4" := by
  constructor
  · rintro ⟨c, hc, hq⟩
    rcases (zDate c).mp hc with rfl | rfl
    · exact .inl ((zDateQuery_orders h).mp hq)
    · exact .inr ((zDateQuery_sessions h).mp hq)
  · rintro (rfl | rfl)
    · exact ⟨_, (zDate _).mpr (.inl rfl), (zDateQuery_orders _).mpr rfl⟩
    · exact ⟨_, (zDate _).mpr (.inr rfl), (zDateQuery_sessions _).mpr rfl⟩

theorem zNice (h : String) (hs : SubQuery zEnv zMetrics zHaving h) : NiceName h := by
  rcases (zSub h).mp hs with rfl | rfl
  · exact ⟨"orders.order", plainDate_of _ (by decide +kernel), [0], by decide +kernel, by simp⟩
  · exact ⟨"sessions.session", plainDate_of _ (by decide +kernel), [4], by decide +kernel, by simp⟩

theorem zDim (d : String) (hd : d ∈ zDims) (f : PField) (hf : zEnv.getField d = .ok f) : f = dOrderDate ∨ f = dRegion ∨ f = zStore := by
  simp only [zDims, List.mem_cons, List.not_mem_nil, or_false] at hd
  rcases hd with rfl | rfl | rfl <;> injection hf with hf <;> subst hf
  · exact .inl rfl
  · exact .inr (.inl rfl)
  · exact .inr (.inr rfl)

theorem zPlain : PlainQuery zEnv zMetrics zHaving zDims where
  ids := by
    intro f g hf hg
    rcases zNeeded f hf with rfl | rfl | rfl <;> rcases zNeeded g hg with rfl | rfl | rfl <;> decide
  names := zNames
  measure := by
    intro f hf
    refine ⟨?_, ?_, ?_⟩
    · rcases zNeeded f hf with rfl | rfl | rfl <;> rfl
    · rcases zNeeded f hf with rfl | rfl | rfl <;> decide
    · intro c b hc hb
      have : b = dOrderDate ∨ b = dSessionDate := by
        rcases zNeeded f hf with rfl | rfl | rfl <;> injection hc with hc <;> subst hc <;> injection hb with hb <;> subst hb
        · exact .inl rfl
        · exact .inr rfl
        · exact .inl rfl
      rcases this with rfl | rfl <;> rfl
  dims := by
    intro d hd f hf
    rcases zDim d hd f hf with rfl | rfl | rfl
    · exact ⟨rfl, fun c hc => by injection hc with hc; subst hc; exact plainDate_of _ (by decide +kernel), [0], by simp, by decide +kernel⟩
    · exact ⟨rfl, fun c hc => by injection hc with hc; subst hc; exact plainDate_of _ (by decide +kernel), [0], by simp, by decide +kernel⟩
    · exact ⟨rfl, fun c hc => (by cases hc), [0, 4], by simp, by decide +kernel⟩

theorem zTwo : TwoDates zEnv zMetrics zHaving := ⟨dOrders, dSessions, zOrders_needed, zSessions_needed, by decide⟩

theorem zJoins (h : String) (hs : SubQuery zEnv zMetrics zHaving h) (f : PField) (hf : f = dRegion ∨ f = zStore) :
    JoinsIn h f ↔ h = "orders_order__subquery_0" ∨ f = zStore := by
  rw [(zNice h hs).joins]
  rcases (zSub h).mp hs with rfl | rfl <;> rcases hf with rfl | rfl <;> decide +kernel

theorem zMaps (h : String) (hs : SubQuery zEnv zMetrics zHaving h) (x : PField) :
    MapsIn zEnv h dRegion x ↔ h = "sessions_session__subquery_4" ∧ x = dArea := by
  have hb := (zNice h hs).built "subquery_4"
  constructor
  · rintro ⟨d, hd, e, m, hm, hg, hbf⟩
    simp only [zEnv, tableEnv, List.mem_cons, List.not_mem_nil, or_false] at hd
    rcases hd with rfl | rfl
    · simp only [List.mem_cons, List.not_mem_nil, or_false] at hm
      subst hm
      rw [hb] at hbf
      injection hg with hg
      rcases (zSub h).mp hs with rfl | rfl
      · exact absurd hbf (by decide +kernel)
      · exact ⟨rfl, hg.symm⟩
    · exact absurd e (by decide)
  · rintro ⟨rfl, rfl⟩
    exact ⟨_, List.mem_cons_self, rfl, _, List.mem_cons_self, rfl, hb.mpr (by decide +kernel)⟩

theorem zTidy : TidyQuery zEnv zMetrics zHaving zDims where
  near := by
    intro d hd f c hf e
    left
    rw [zDate]
    rcases zDim d hd f hf with rfl | rfl | rfl
    · injection e with e; exact .inl e.symm
    · injection e with e; exact .inl e.symm
    · cases e
  names := by
    intro c h hc hq
    rcases (zDate c).mp hc with rfl | rfl
    · rw [(zDateQuery_orders h).mp hq]
      exact ⟨plainDate_of _ (by decide +kernel), [0], by decide +kernel, by simp⟩
    · rw [(zDateQuery_sessions h).mp hq]
      exact ⟨plainDate_of _ (by decide +kernel), [4], by decide +kernel, by simp⟩
  apart := by
    intro c c' h hc hc' hq hq'
    rcases (zDate c).mp hc with rfl | rfl <;> rcases (zDate c').mp hc' with rfl | rfl
    · rfl
    · rw [zDateQuery_orders] at hq; rw [zDateQuery_sessions] at hq'; exact absurd (hq.symm.trans hq') (by decide)
    · rw [zDateQuery_sessions] at hq; rw [zDateQuery_orders] at hq'; exact absurd (hq.symm.trans hq') (by decide)
    · rfl
  dates := by
    intro d hd f hf hk
    rw [zDate] at hk
    rcases zDim d hd f hf with rfl | rfl | rfl
    · refine ⟨?_, ?_⟩
      · intro m hm
        simp only [zEnv, tableEnv, List.mem_cons, List.not_mem_nil, or_false] at hm
        rcases hm with rfl | rfl <;> decide
      · intro b hb
        injection hb with hb
        subst hb
        rfl
    · exact absurd hk (by decide)
    · exact absurd hk (by decide)
  others := by
    intro d hd f hf hk
    rw [zDate] at hk
    have h0 : SubQuery zEnv zMetrics zHaving "orders_order__subquery_0" := (zSub _).mpr (.inl rfl)
    rcases zDim d hd f hf with rfl | rfl | rfl
    · exact absurd (.inl (by decide)) hk
    · refine ⟨⟨_, h0, (zJoins _ h0 _ (.inl rfl)).mpr (.inl rfl)⟩, fun h hs hn => ⟨dArea, fun y => ?_⟩⟩
      rw [zMaps h hs]
      rw [zJoins h hs _ (.inl rfl)] at hn
      rcases (zSub h).mp hs with rfl | rfl
      · exact absurd (.inl rfl) hn
      · simp
    · refine ⟨⟨_, h0, (zJoins _ h0 _ (.inr rfl)).mpr (.inr rfl)⟩, fun h hs hn => ?_⟩
      exact absurd ((zJoins h hs _ (.inr rfl)).mpr (.inr rfl)) hn
  maps := by
    intro d hd
    simp only [zEnv, tableEnv, List.mem_cons, List.not_mem_nil, or_false] at hd
    rcases hd with rfl | rfl
    · refine ⟨fun h => ?_, ?_⟩
      · exact absurd ((zSub _).mp h) (by decide)
      · intro m hm
        simp only [List.mem_cons, List.not_mem_nil, or_false] at hm
        subst hm
        exact ⟨4, by omega, by decide +kernel⟩
    · refine ⟨fun h => ?_, ?_⟩
      · exact absurd ((zSub _).mp h) (by decide)
      · intro m hm
        simp only [List.mem_cons, List.not_mem_nil, or_false] at hm
        subst hm
        exact ⟨0, by omega, by decide +kernel⟩

/-- The fields of the two sub-queries, place by place. -/
theorem zCounterpart (h : String) (hs : SubQuery zEnv zMetrics zHaving h) (x : PField) :
    (Counterpart zEnv zMetrics zHaving h dOrderDate x ↔ (h = "orders_order__subquery_0" ∧ x = dOrderDate) ∨ (h = "sessions_session__subquery_4" ∧ x = dSessionDate)) ∧
    (Counterpart zEnv zMetrics zHaving h dRegion x ↔ (h = "orders_order__subquery_0" ∧ x = dRegion) ∨ (h = "sessions_session__subquery_4" ∧ x = dArea)) ∧
    (Counterpart zEnv zMetrics zHaving h zStore x ↔ x = zStore) := by
  have k1 : MetricDate zEnv zMetrics zHaving dOrderDate.key := (zDate _).mpr (by decide)
  have k2 : ¬ MetricDate zEnv zMetrics zHaving dRegion.key := fun h => absurd ((zDate _).mp h) (by decide)
  have k3 : ¬ MetricDate zEnv zMetrics zHaving zStore.key := fun h => absurd ((zDate _).mp h) (by decide)
  have ek : dOrderDate.key = "orders.order" := by decide
  rw [ek] at k1
  unfold Counterpart
  refine ⟨?_, ?_, ?_⟩
  · simp only [k1, true_and, not_true_eq_false, false_and, or_false, ek]
    rw [zDateQuery_orders]
    refine or_congr Iff.rfl ⟨?_, ?_⟩
    · rintro ⟨c, hc, hne, hq, hg⟩
      rcases (zDate c).mp hc with rfl | rfl
      · exact absurd rfl hne
      · refine ⟨(zDateQuery_sessions h).mp hq, ?_⟩
        have : zEnv.getField ("sessions.session" ++ "_" ++ dOrderDate.group.getD "None") = .ok dSessionDate := by rfl
        rw [this] at hg
        injection hg with hg
        exact hg.symm
    · rintro ⟨rfl, rfl⟩
      exact ⟨"sessions.session", (zDate _).mpr (.inr rfl), by decide, (zDateQuery_sessions _).mpr rfl, by rfl⟩
  · simp only [k2, false_and, not_false_eq_true, true_and, false_or]
    rw [zJoins h hs _ (.inl rfl), zMaps h hs]
    have : ¬ dRegion = zStore := by decide
    simp only [this, or_false]
    constructor
    · rintro (h | ⟨_, h⟩)
      · exact .inl h
      · exact .inr h
    · rintro (h | ⟨rfl, h⟩)
      · exact .inl h
      · exact .inr ⟨by decide, rfl, h⟩
  · simp only [k3, false_and, not_false_eq_true, true_and, false_or]
    rw [zJoins h hs _ (.inr rfl)]
    simp

theorem zDiffer : DimensionsDiffer zEnv zMetrics zHaving zDims := by
  intro h hs
  have hc := fun x => zCounterpart h hs x
  have a : zEnv.getField "orders.order_date" = .ok dOrderDate := rfl
  have b : zEnv.getField "orders.region" = .ok dRegion := rfl
  have c : zEnv.getField "stores.name" = .ok zStore := rfl
  simp only [zDims, List.pairwise_cons, List.mem_cons, List.not_mem_nil, or_false, false_implies, implies_true, List.Pairwise.nil, and_true,
    forall_eq_or_imp, forall_eq, a, b, c, Except.ok.injEq]
  refine ⟨⟨?_, ?_⟩, ?_⟩
  · rintro f f' x x' rfl rfl h1 h2
    rw [(hc x).1] at h1; rw [(hc x').2.1] at h2
    rcases h1 with ⟨_, rfl⟩ | ⟨_, rfl⟩ <;> rcases h2 with ⟨_, rfl⟩ | ⟨_, rfl⟩ <;> decide
  · rintro f f' x x' rfl rfl h1 h2
    rw [(hc x).1] at h1; rw [(hc x').2.2] at h2
    subst h2
    rcases h1 with ⟨_, rfl⟩ | ⟨_, rfl⟩ <;> decide
  · rintro f f' x x' rfl rfl h1 h2
    rw [(hc x).2.1] at h1; rw [(hc x').2.2] at h2
    subst h2
    rcases h1 with ⟨_, rfl⟩ | ⟨_, rfl⟩ <;> decide

theorem zFits : FitsTogether zEnv zMetrics zHaving zDims where
  dates := by
    intro c g x hc hg
    have hmem := table_mem hg
    have hk : (c ++ "_" ++ g, x) ∈ [("orders.order_date", dOrderDate), ("sessions.session_date", dSessionDate)] := by
      have : ∀ p ∈ [("revenue", dRevenue), ("orders", dOrders), ("sessions", dSessions), ("rate", dRate), ("orders.order_date", dOrderDate),
          ("sessions.session_date", dSessionDate), ("orders.region", dRegion), ("sessions.area", dArea), ("stores.name", zStore)],
          ("orders.order_".toList <+: p.1.toList ∨ "sessions.session_".toList <+: p.1.toList) →
          p ∈ [("orders.order_date", dOrderDate), ("sessions.session_date", dSessionDate)] := by decide +kernel
      refine this _ hmem ?_
      rcases (zDate c).mp hc with rfl | rfl
      · left; exact ⟨g.toList, by simp [String.toList_append]⟩
      · right; exact ⟨g.toList, by simp [String.toList_append]⟩
    simp only [List.mem_cons, Prod.mk.injEq, List.not_mem_nil, or_false] at hk
    have split : ∀ a : String, ∀ b : String, a ++ g = a ++ b → g = b := by
      intro a b e
      have := congrArg String.toList e
      rw [String.toList_append, String.toList_append] at this
      exact String.toList_inj.mp (List.append_cancel_left this)
    have clash : ∀ a b : String, a ++ g = b → ¬ a.toList <+: b.toList → False := by
      intro a b e hn
      exact hn ⟨g.toList, by rw [← String.toList_append, e]⟩
    rcases (zDate c).mp hc with rfl | rfl <;> rcases hk with ⟨e, rfl⟩ | ⟨e, rfl⟩
    · have := split "orders.order_" "date" (by exact e)
      subst this
      exact ⟨by decide, rfl⟩
    · exact (clash "orders.order_" _ e (by decide +kernel)).elim
    · exact (clash "sessions.session_" _ e (by decide +kernel)).elim
    · have := split "sessions.session_" "date" (by exact e)
      subst this
      exact ⟨by decide, rfl⟩
  grouped := by
    intro d hd f hf hk
    rw [zDate] at hk
    rcases zDim d hd f hf with rfl | rfl | rfl
    · decide
    · exact absurd hk (by decide)
    · exact absurd hk (by decide)
  unmapped := by
    intro m hm hk
    rw [zDate] at hk
    simp only [zEnv, tableEnv, List.mem_cons, List.not_mem_nil, or_false] at hm
    rcases hm with rfl | rfl <;> exact absurd hk (by decide)
  others := by
    intro d hd f hf hk
    rw [zDate] at hk
    rcases zDim d hd f hf with rfl | rfl | rfl
    · exact absurd (.inl (by decide)) hk
    · right
      have hb := fun h (hs : SubQuery zEnv zMetrics zHaving h) g => (zNice h hs).built g
      refine ⟨?_, ?_, ?_⟩
      · intro h x hs hx
        rw [zDate]
        rcases (zCounterpart h hs x).2.1.mp hx with ⟨_, rfl⟩ | ⟨_, rfl⟩ <;> decide
      · intro h h' x hs hs' hne hx
        rcases (zCounterpart h hs x).2.1.mp hx with ⟨rfl, rfl⟩ | ⟨rfl, rfl⟩ <;> rcases (zSub h').mp hs' with rfl | rfl
        · exact absurd rfl hne
        · exact ⟨_, List.mem_cons_self, rfl, _, List.mem_cons_self, (hb _ hs' _).mpr (by decide +kernel)⟩
        · exact ⟨_, List.mem_cons_of_mem _ List.mem_cons_self, rfl, _, List.mem_cons_self, (hb _ hs' _).mpr (by decide +kernel)⟩
        · exact absurd rfl hne
      · intro h x hs hx d hd e m hm h' hs' hbf
        rw [hb h' hs'] at hbf
        simp only [zEnv, tableEnv, List.mem_cons, List.not_mem_nil, or_false] at hd
        rcases (zCounterpart h hs x).2.1.mp hx with ⟨rfl, rfl⟩ | ⟨rfl, rfl⟩ <;> rcases hd with rfl | rfl <;>
          first
          | exact absurd e (by decide)
          | skip
        · simp only [List.mem_cons, List.not_mem_nil, or_false] at hm
          subst hm
          rcases (zSub h').mp hs' with rfl | rfl
          · exact absurd hbf (by decide +kernel)
          · exact ⟨by decide, dArea, (zCounterpart _ hs' _).2.1.mpr (.inr ⟨rfl, rfl⟩), rfl⟩
        · simp only [List.mem_cons, List.not_mem_nil, or_false] at hm
          subst hm
          rcases (zSub h').mp hs' with rfl | rfl
          · exact ⟨by decide, dRegion, (zCounterpart _ hs' _).2.1.mpr (.inl ⟨rfl, rfl⟩), rfl⟩
          · exact absurd hbf (by decide +kernel)
    · left
      refine ⟨fun h hs => (zJoins h hs _ (.inr rfl)).mpr (.inr rfl), ?_⟩
      intro d hd e
      simp only [zEnv, tableEnv, List.mem_cons, List.not_mem_nil, or_false] at hd
      rcases hd with rfl | rfl <;> exact absurd e (by decide)

/-- (an example; it models no file in /repo) -/
def zDimOf (x : PField) : MDim := ⟨x.view, x.name, x.group, false, "string"⟩

/-- (an example; it models no file in /repo) -/
def zColumn (x : PField) : String := x.view ++ "_" ++ x.name

theorem zDimension (h : String) (hs : SubQuery zEnv zMetrics zHaving h) (x : PField) (hx : DimensionOf zEnv zMetrics zHaving zDims h x) :
    x = dOrderDate ∨ x = dSessionDate ∨ x = dRegion ∨ x = dArea ∨ x = zStore := by
  obtain ⟨d, hd, f, hf, hc⟩ := hx
  obtain ⟨a, b, c⟩ := zCounterpart h hs x
  rcases zDim d hd f hf with rfl | rfl | rfl
  · rcases a.mp hc with ⟨_, rfl⟩ | ⟨_, rfl⟩ <;> simp
  · rcases b.mp hc with ⟨_, rfl⟩ | ⟨_, rfl⟩ <;> simp
  · rw [c.mp hc]; simp

theorem zColumns : ColumnsApart zEnv zMetrics zHaving zDims zDimOf zColumn where
  reads := by
    intro h x hs hx
    refine ⟨rfl, rfl, rfl, rfl, ?_⟩
    rcases zDimension h hs x hx with rfl | rfl | rfl | rfl | rfl <;> decide
  noDots := by
    intro h x hs hx
    rcases zDimension h hs x hx with rfl | rfl | rfl | rfl | rfl <;> decide +kernel
  dims := by
    intro h h' x x' hs hs' hx hx'
    rcases zDimension h hs x hx with rfl | rfl | rfl | rfl | rfl <;> rcases zDimension h' hs' x' hx' with rfl | rfl | rfl | rfl | rfl <;> decide
  columns := by
    intro f g hf hg
    rcases zNeeded f hf with rfl | rfl | rfl <;> rcases zNeeded g hg with rfl | rfl | rfl <;> decide
  apart := by
    intro h x f hs hx hf
    rcases zDimension h hs x hx with rfl | rfl | rfl | rfl | rfl <;> rcases zNeeded f hf with rfl | rfl | rfl <;> decide

end ML
