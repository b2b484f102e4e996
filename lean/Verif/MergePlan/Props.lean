import Verif.MergePlan.Lemmas2
/-
C35: a dimension is attached to exactly the sub-queries whose name was built from one of its join graphs.
C36: every metric is computed in exactly one sub-query, once.
C37: every condition reaches every sub-query, as it is or on a mapped field.
-/
set_option autoImplicit false
namespace ML
open Spec

/-! ### C35 -/

/-- The comparison of a sub-query's name with join graphs is exact: it holds iff one of the graphs is among those the name was
built from. In particular `subquery_1` does not match `subquery_12`. -/
theorem C35_exact (date : String) (hd : PlainDate date) (ns : List ℕ) (gs : List String) :
    hashContains (cteName date (underscoreJoin (ns.map graphName))) gs = true ↔ ∃ n ∈ ns, graphName n ∈ gs :=
  hashContains_iff date hd ns gs

example : hashContains "orders_order_date__subquery_12_subquery_3" ["subquery_1", "merged_result_x"] = false ∧
    hashContains "orders_order_date__subquery_12_subquery_3" ["subquery_3"] = true := by decide +kernel

/-- With fewer than ten join graphs, every dimension a sub-query computes is one that was asked for, joined through a join graph
the sub-query's name was built from, or its mapped version whose join graph the name was built from. Missing: ten or more join
graphs, where the code compares mapped fields by substring (`C35_substring`). -/
theorem C35_attached_partial (env : PlanEnv) (metrics having dimensions : List String) (wheres : List MWhere) (plan : Plan)
    (h : derivePlan env metrics having dimensions wheres = .ok plan)
    (hid : ∀ n m f g, env.getField n = .ok f → env.getField m = .ok g → f.id = g.id → f = g)
    (hkeys : ∀ k ∈ plan.dims.map (·.1), ∃ (date : String) (ns : List ℕ), PlainDate date ∧ k = cteName date (underscoreJoin (ns.map graphName)) ∧ ∀ n ∈ ns, n < 10)
    (hmaps : ∀ d ∈ env.mappings, d.fromHash ∉ plan.dims.map (·.1) ∧ ∀ m ∈ d.refs, ∃ n, n < 10 ∧ m.toHash = graphName n) :
    ∀ k l, (k, l) ∈ plan.dims → ∀ x ∈ l, ∃ d ∈ dimensions, ∃ f, env.getField d = .ok f ∧
      ComesFrom env (QueryDate env metrics having dimensions) BuiltFrom k f x := by
  obtain ⟨mg, sec, q, dimFields, dm0, dm, hashes, used, st⟩ := derivePlan_steps env metrics having dimensions wheres plan h
  obtain ⟨qd, ha, hdims⟩ := st.attached
  intro k l hkl x hx
  have hk : k ∈ plan.dims.map (·.1) := List.mem_map.mpr ⟨(k, l), hkl, rfl⟩
  obtain ⟨date, ns, hdate, ek, hns⟩ := hkeys k hk
  have hin : x ∈ (dictGet qd k).getD [] := by
    rw [hdims] at hkl
    unfold dedupDict at hkl
    obtain ⟨p, hp, e⟩ := List.mem_map.mp hkl
    injection e with e1 e2
    subst e1 e2
    have hnod : (qd.map (·.1)).Nodup := attachDimensions_nodup env dm _ used dimensions (q, []) (plan.metrics, qd) ha (by simp)
    rw [dictGet_of_mem hnod hp]
    exact dedupFields_mem _ _ _ hx
  rcases (attachDimensions_dims env dm _ used st.used_nodup dimensions (q, []) (plan.metrics, qd) ha).2.1 k x hin with h0 | ⟨d, hd, f, hf, ht⟩
  · cases h0
  · refine ⟨d, hd, f, hf, ?_⟩
    rcases ht with ⟨rfl, hc | ho⟩ | ⟨m, hm, hcase⟩
    · exact .inl ⟨rfl, .inl (builtFrom_iff hdate ek _ hc)⟩
    · exact .inl ⟨rfl, .inr ho⟩
    · rcases st.entry hid f.key m hm with ⟨q1, q2, hent⟩ | ⟨dd, hdd, e1, mm, hmm, e2, e3, e4⟩
      · obtain ⟨hne, b, g, hb, hg, em⟩ := hent
        rcases hcase with ⟨_, hx1, hx2⟩ | ⟨hnd, hx1, hx2⟩
        · right; left
          refine ⟨q1, m.field, q2, hne, ⟨b, g, hb, hg, ?_⟩, hx1⟩
          rw [hx2, em]
        · exfalso
          obtain ⟨_, e, _⟩ := st.mapped
          subst e
          unfold addMappings at hm
          rcases (addMappings_spec used env.mappings (dm0, dm0.map (fun p => (p.1, p.2.map (fun x => (x.field, x.fromHash)))))).2.2 f.key m hm with h1 | ⟨dd, _, _, mm, _, _, e3, _⟩
          · rcases (dateMap_spec env _ _ _ _ st.dates).2.2.2 f.key m h1 with h1 | ⟨hk', _⟩
            · cases h1
            · exact hnd hk'
          · rw [em] at e3; cases e3
      · right; right
        obtain ⟨n, hn, en⟩ := (hmaps dd hdd).2 mm hmm
        have hcont : ∀ h' : String, h' = k → hashContains h' [mm.toHash] = true → BuiltFrom k mm.toHash := by
          intro h' e hc
          subst e
          obtain ⟨g, hg, hb⟩ := builtFrom_iff hdate ek _ hc
          simp only [List.mem_singleton] at hg
          exact hg ▸ hb
        have hfrom : m.fromHash = k → BuiltFrom k mm.toHash := by
          intro e
          rcases e4 with e4 | e4
          · exact absurd (by rw [← e4, e]; exact hk) (hmaps dd hdd).1
          · exact hcont _ e e4
        refine ⟨dd, hdd, e1, mm, hmm, ?_⟩
        rcases hcase with ⟨_, hx1, hx2⟩ | ⟨_, hx1, hx2⟩
        · exact ⟨.inr (e2 ▸ hx1), .inl (hfrom hx2.symm)⟩
        · refine ⟨.inl (e2 ▸ hx1), ?_⟩
          rcases hx2 with hx2 | ⟨t, ht, hi | hc⟩
          · exact .inl (hfrom hx2)
          · rw [e3] at ht
            injection ht with ht
            subst ht
            left
            rw [en, ek] at hi
            exact ⟨date, ns, n, hdate, ek, infix_graph date hdate ns hns n hn hi, en⟩
          · rw [e3] at ht
            injection ht with ht
            subst ht
            exact .inr hc

/-- A dimension that is not a canonical date is computed in every metric's sub-query whose name was built from one of its join
graphs. -/
theorem C35_joined (env : PlanEnv) (metrics having dimensions : List String) (wheres : List MWhere) (plan : Plan)
    (h : derivePlan env metrics having dimensions wheres = .ok plan) (hp : PlainQuery env metrics having dimensions)
    (two : TwoDates env metrics having) (m : PField) (hm : Needed env metrics having m) (k : String) (hk : BelongsTo env m k)
    (d : String) (hd : d ∈ dimensions) (f : PField) (hf : env.getField d = .ok f) (hnd : ¬ QueryDate env metrics having dimensions f.key)
    (hg : ∃ g ∈ f.graphs, BuiltFrom k g) : ComputedIn plan.dims f k := by
  obtain ⟨mg, sec, q, dimFields, dm0, dm, hashes, used, st⟩ := derivePlan_steps env metrics having dimensions wheres plan h
  obtain ⟨qd, ha, hdims⟩ := st.attached
  have hc : hashContains k f.graphs = true := by
    obtain ⟨g, hg, date, ns, n, hdate, rfl, hn, rfl⟩ := hg
    exact (C35_exact date hdate ns f.graphs).mpr ⟨n, hn, hg⟩
  have hin := (attachDimensions_dims env dm _ used st.used_nodup dimensions (q, []) (plan.metrics, qd) ha).2.2.1 d hd f hf
    (fun hin => hnd (st.dates_only hp.names _ hin)) k (st.needed_used hp two m hm k hk) hc
  simp only at hin
  cases hq : dictGet qd k with
  | none => rw [hq] at hin; cases hin
  | some l =>
    rw [hq] at hin
    refine ⟨dedupFields [] l, dictGet_mem (by rw [hdims, dictGet_dedup, hq]; rfl), ?_⟩
    rcases dedupFields_ids [] l f hin with ⟨g, hg, _⟩ | ⟨g, hg, e⟩
    · cases hg
    · exact ⟨g, hg, e⟩

/-! ### C36 -/

/-- Every metric the query needs is computed in exactly one sub-query, that of its canonical date and its date's join graphs; no
sub-query computes a metric twice, and none computes a metric that is not needed. Missing: queries whose metrics have one
canonical date, where a dimension can delete the metrics (`C36_dropped`). -/
theorem C36_partial (env : PlanEnv) (metrics having dimensions : List String) (wheres : List MWhere) (plan : Plan)
    (h : derivePlan env metrics having dimensions wheres = .ok plan) (hp : PlainQuery env metrics having dimensions)
    (two : TwoDates env metrics having ∨ dimensions = []) :
    (∀ f, Needed env metrics having f → ∃ k, BelongsTo env f k ∧ ∀ k', ComputedIn plan.metrics f k' ↔ k' = k) ∧
    (plan.metrics.map (·.1)).Nodup ∧
    ∀ k l, (k, l) ∈ plan.metrics → (l.map PField.id).Nodup ∧ ∀ x ∈ l, Needed env metrics having x := by
  obtain ⟨mg, sec, q, dimFields, dm0, dm, hashes, used, st⟩ := derivePlan_steps env metrics having dimensions wheres plan h
  obtain ⟨qd, ha, _⟩ := st.attached
  obtain ⟨a1, a2, a3, _⟩ := placeMetrics_spec env metrics having mg sec q st.placed (fun f g n m _ _ hn hm e => hp.names n m f g hn hm e)
  have hcore : (plan.metrics.map (·.1)).Nodup ∧ (∀ f, Needed env metrics having f → ∀ k, BelongsTo env f k → dictGet plan.metrics k = dictGet q k) ∧
      (∀ k, dictGet plan.metrics k = dictGet q k ∨ dictGet plan.metrics k = some []) := by
    rcases two with two | rfl
    · obtain ⟨b1, b2, b3⟩ := attachDimensions_metrics env dm _ used st.used_nodup dimensions (q, []) (plan.metrics, qd) ha hp.dims
      exact ⟨b1 a1.nodup, fun f hf k hk => b2 k (st.needed_used hp two f hf k hk), b3⟩
    · simp only [attachDimensions, Except.ok.injEq, Prod.mk.injEq] at ha
      obtain ⟨e, _⟩ := ha
      rw [← e]
      exact ⟨a1.nodup, fun _ _ _ _ => rfl, fun _ => .inl rfl⟩
  obtain ⟨c1, c2, c3⟩ := hcore
  have back : ∀ k l, (k, l) ∈ plan.metrics → l ≠ [] → (k, l) ∈ q := by
    intro k l hkl hne
    have hg := dictGet_of_mem c1 hkl
    rcases c3 k with e | e
    · exact dictGet_mem (by rw [← e]; exact hg)
    · rw [hg] at e; injection e with e; exact absurd e hne
  refine ⟨?_, c1, ?_⟩
  · intro f hf
    obtain ⟨k, hk, hcomp⟩ := a3 f hf
    refine ⟨k, hk, fun k' => ⟨?_, ?_⟩⟩
    · rintro ⟨l, hl, g, hg, e⟩
      have hq := back k' l hl (by rintro rfl; cases hg)
      obtain ⟨hb, hn⟩ := a1.place k' l hq g hg
      have := hp.ids g f hn hf e
      subst this
      obtain ⟨c, gg, e1, e2, rfl⟩ := hb
      obtain ⟨c', gg', e1', e2', rfl⟩ := hk
      rw [e1] at e1'
      rw [e2] at e2'
      injection e1' with e1'
      injection e2' with e2'
      rw [e1', e2']
    · rintro rfl
      obtain ⟨l, hl, g⟩ := hcomp
      exact ⟨l, dictGet_mem (by rw [c2 f hf k' hk]; exact dictGet_of_mem a1.nodup hl), g⟩
  · intro k l hkl
    by_cases hne : l = []
    · subst hne; simp
    · have hq := back k l hkl hne
      exact ⟨a2 k l hq, fun x hx => (a1.place k l hq x hx).2⟩

/-- Metrics with the same canonical date share a sub-query. -/
theorem C36_shared (env : PlanEnv) (metrics having dimensions : List String) (hp : PlainQuery env metrics having dimensions) (f g : PField)
    (hf : Needed env metrics having f) (hg : Needed env metrics having g) (hc : f.canon = g.canon) (k : String) (hk : BelongsTo env f k) :
    BelongsTo env g k := by
  obtain ⟨c, x, e1, e2, rfl⟩ := hk
  refine ⟨c, x, by rw [← hc]; exact e1, ?_, rfl⟩
  unfold joinHashKey at e2 ⊢
  rw [(hp.measure f hf).1, e1] at e2
  rw [(hp.measure g hg).1, ← hc, e1]
  exact e2

/-! ### C37 -/

/-- Every condition of the query is applied in every sub-query: with the same groups and the same comparisons, on its own field
or on one that stands for it there, and on its own field wherever the sub-query can use it. Identical conditions are applied
once; nothing else is dropped or added and the order is kept. -/
theorem C37_applied (env : PlanEnv) (metrics having dimensions : List String) (wheres : List MWhere) (plan : Plan)
    (h : derivePlan env metrics having dimensions wheres = .ok plan) (hs : StructuredList wheres)
    (hid : ∀ n m f g, env.getField n = .ok f → env.getField m = .ok g → f.id = g.id → f = g)
    (hnames : ∀ d ∈ env.mappings, d.fromHash ∉ plan.metrics.map (·.1) ++ plan.dims.map (·.1)) :
    ∀ k ∈ plan.metrics.map (·.1) ++ plan.dims.map (·.1), ∃ ws, (k, ws) ∈ plan.where_ ∧ ws.Nodup ∧ ∃ ws',
      List.Forall₂ (Rewritten (Reaches env (QueryDate env metrics having dimensions) (plan.metrics.flatMap (·.2)) k)) wheres ws' ∧
      ws.Sublist ws' ∧ ∀ w ∈ ws', w ∈ ws := by
  obtain ⟨mg, sec, q, dimFields, dm0, dm, hashes, used, st⟩ := derivePlan_steps env metrics having dimensions wheres plan h
  intro k hk
  obtain ⟨ws, hws, hsub⟩ := (allWheres_spec env plan.metrics dm wheres _ _ st.wheres).2 k (by
    rw [List.mem_reverse, List.mem_dedup, List.mem_reverse]; exact hk)
  unfold subqueryWhere at hsub
  cases hr : resolveWheres env plan.metrics dm k wheres with
  | error e => rw [hr] at hsub; cases hsub
  | ok ws' =>
    rw [hr] at hsub
    simp only at hsub
    obtain ⟨s1, ⟨t, s2, s3⟩, s4⟩ := cleanWhere_spec [] ws' ws hsub List.nodup_nil
    rw [List.nil_append] at s2
    subst s2
    refine ⟨ws, hws, s1, ws', ?_, s3, s4⟩
    refine resolveWheres_rewritten env plan.metrics dm k _ ?_ wheres ws' hs hr
    intro field rest w hw
    obtain ⟨f, hf, g, _, l1, l2, _⟩ := leaf_spec env plan.metrics dm k field rest w hw
    rcases l2 with rfl | ⟨m, hm, e1, x, e2, rfl⟩
    · exact ⟨field, rfl, f, hf, fun _ => rfl, .inl rfl⟩
    · refine ⟨x.id, rfl, f, hf, ?_, .inr ⟨m.field, x, ?_, e2, rfl⟩⟩
      · intro hfit
        have := l1 hfit
        injection this
      · rcases st.entry hid f.key m hm with ⟨q1, q2, hne, b, g', hb, hg', em⟩ | ⟨d, hd, d1, mm, hmm, d2, d3, d4⟩
        · left
          refine ⟨q1, q2, hne, b, g', hb, hg', ?_⟩
          rw [← e1, em]
        · right
          refine ⟨d, hd, d1, mm, hmm, d2.symm, ?_⟩
          rcases d4 with d4 | d4
          · exfalso
            apply hnames d hd
            rw [← d4, e1]
            exact hk
          · rw [← e1]; exact d4

/-- In the sub-query of a metric, a condition on a field that cannot be used there is made on a field that stands for it, if there
is one. Missing: sub-queries whose name contains the name of another canonical date (`C37_suffix`), and queries whose metrics
have one canonical date. -/
theorem C37_mapped_partial (env : PlanEnv) (metrics having dimensions : List String) (wheres : List MWhere) (plan : Plan)
    (h : derivePlan env metrics having dimensions wheres = .ok plan) (hs : StructuredList wheres) (hp : PlainQuery env metrics having dimensions)
    (two : TwoDates env metrics having)
    (hnames : ∀ d ∈ env.mappings, d.fromHash ∉ plan.metrics.map (·.1) ++ plan.dims.map (·.1))
    (m : PField) (hm : Needed env metrics having m) (date : String) (ns : List ℕ) (htidy : TidyDate date)
    (hk : BelongsTo env m (cteName date (underscoreJoin (ns.map graphName))))
    (hdots : ∀ n f, env.getField n = .ok f → '.' ∉ f.view.toList ∧ '.' ∉ f.name.toList)
    (hsuffix : ∀ n f g, env.getField n = .ok f → joinHashKey env f = .ok g → (cteName f.key g).toList <:+: (cteName date (underscoreJoin (ns.map graphName))).toList →
      cteName date (underscoreJoin (ns.map graphName)) = cteName f.key g) :
    ∃ ws, (cteName date (underscoreJoin (ns.map graphName)), ws) ∈ plan.where_ ∧ ∃ ws',
      List.Forall₂ (Rewritten (Mapped env (MetricDate env metrics having) (QueryDate env metrics having dimensions) (plan.metrics.flatMap (·.2))
        (cteName date (underscoreJoin (ns.map graphName))))) wheres ws' ∧ ∀ w ∈ ws', w ∈ ws := by
  have hcomp : cteName date (underscoreJoin (ns.map graphName)) ∈ plan.metrics.map (·.1) := by
    obtain ⟨k0, hk0, hiff⟩ := (C36_partial env metrics having dimensions wheres plan h hp (.inl two)).1 m hm
    obtain ⟨l, hl, _⟩ := (hiff k0).mpr rfl
    have : k0 = cteName date (underscoreJoin (ns.map graphName)) := by
      obtain ⟨c, g, e1, e2, rfl⟩ := hk0
      obtain ⟨c', g', e1', e2', e⟩ := hk
      rw [e]
      rw [e1] at e1'
      rw [e2] at e2'
      injection e1' with e1'
      injection e2' with e2'
      rw [e1', e2']
    rw [← this]
    exact List.mem_map.mpr ⟨_, hl, rfl⟩
  generalize hkk : cteName date (underscoreJoin (ns.map graphName)) = k at *
  obtain ⟨mg, sec, q, dimFields, dm0, dm, hashes, used, st⟩ := derivePlan_steps env metrics having dimensions wheres plan h
  have hkey : k ∈ plan.metrics.map (·.1) ++ plan.dims.map (·.1) := List.mem_append_left _ hcomp
  obtain ⟨ws, hws, hsub⟩ := (allWheres_spec env plan.metrics dm wheres _ _ st.wheres).2 k (by
    rw [List.mem_reverse, List.mem_dedup, List.mem_reverse]; exact hkey)
  unfold subqueryWhere at hsub
  cases hr : resolveWheres env plan.metrics dm k wheres with
  | error e => rw [hr] at hsub; cases hsub
  | ok ws' =>
    rw [hr] at hsub
    simp only at hsub
    refine ⟨ws, hws, ws', ?_, (cleanWhere_spec [] ws' ws hsub List.nodup_nil).2.2⟩
    refine resolveWheres_rewritten env plan.metrics dm k _ ?_ wheres ws' hs hr
    intro field rest w hw
    obtain ⟨f, hf, g, hg, l1, l2, l3⟩ := leaf_spec env plan.metrics dm k field rest w hw
    have stands : ∀ m ∈ (dictGet dm f.key).getD [], m.fromHash = k → StandsFor env (QueryDate env metrics having dimensions) k f m.field := by
      intro m hm e1
      rcases st.entry hp.names f.key m hm with ⟨q1, q2, hne, b, g', hb, hg', em⟩ | ⟨d, hd, d1, mm, hmm, d2, d3, d4⟩
      · left
        refine ⟨q1, q2, hne, b, g', hb, hg', ?_⟩
        rw [← e1, em]
      · right
        refine ⟨d, hd, d1, mm, hmm, d2.symm, ?_⟩
        rcases d4 with d4 | d4
        · exfalso
          apply hnames d hd
          rw [← d4, e1]
          exact hkey
        · rw [← e1]; exact d4
    have fin : ∃ field', w = .cond field' rest := by
      rcases l2 with e | ⟨_, _, _, x, _, e⟩
      · exact ⟨_, e⟩
      · exact ⟨_, e⟩
    obtain ⟨field', rfl⟩ := fin
    refine ⟨field', rfl, f, hf, ?_⟩
    rintro hnf ⟨base, hbase⟩
    rcases l3 with (⟨c1, c2⟩ | ⟨c1, c2⟩) | c3 | ⟨m', hm', e1, x, e2, e3⟩
    · exfalso
      apply hnf
      left
      rw [← hkk, joinable_eq date htidy ns] at c2
      obtain ⟨n, hn, e⟩ := List.mem_map.mp c2
      exact ⟨c1, date, ns, n, htidy, hkk.symm, hn, by rw [hg, e]⟩
    · exfalso
      apply hnf
      right
      obtain ⟨v1, v2⟩ := hdots field f hf
      refine ⟨c1, v1, v2, g, hg, ?_⟩
      apply hsuffix field f g hf hg
      rw [← ownName_eq f g v1 v2]
      exact c2
    · exfalso
      obtain ⟨_, e, _⟩ := st.mapped
      have hmono := (addMappings_spec used env.mappings (dm0, dm0.map (fun p => (p.1, p.2.map (fun x => (x.field, x.fromHash))))))
      rcases hbase with ⟨b1, b2, b3, bf, bg, b4, b5, b6⟩ | ⟨d, hd, d1, mm, hmm, d2, d3⟩
      · obtain ⟨x, ⟨_, b, g', hb, hg', ex⟩, _, hx⟩ := (dateMap_spec env _ _ _ _ st.dates).2.2.1 f.key (st.canon hp _ b1) base (st.canon hp _ b2) b3
        have hx' : x ∈ (dictGet dm f.key).getD [] := by
          rw [e]; exact hmono.1 _ _ hx
        apply c3 x hx'
        rw [ex, b6]
        rw [b4] at hb
        injection hb with hb
        subst hb
        rw [b5] at hg'
        injection hg' with hg'
        rw [hg']
      · have := hmono.2.1 d hd mm hmm k (st.needed_used hp two m hm k hk) d3
        rw [d1] at this
        exact c3 _ (by rw [e]; exact this) rfl
    · injection e3 with e3
      exact ⟨m'.field, x, stands m' hm' e1, e2, e3⟩

/-! ### A project for the examples -/

/-- An environment given by a table. -/
def tableEnv (table byName : List (String × PField)) (refs : List (String × List (Option PField))) (mappings : List MapData) : PlanEnv :=
  { getField := fun n => match dictGet table n with | some f => .ok f | none => .error .accessDenied
    getFieldByName := fun n => match dictGet byName n with | some f => .ok f | none => .error .accessDenied
    refs := fun m => (dictGet refs m.id).getD []
    mappings := mappings }

/-- The metrics a query of a table needs, as a list. -/
def neededList (env : PlanEnv) (names : List String) : List PField :=
  names.flatMap (fun n => match env.getField n with
    | .ok m => if m.merged then (env.refs m).filterMap id else [m]
    | .error _ => [])

theorem needed_mem (env : PlanEnv) (metrics having : List String) (f : PField) (h : Needed env metrics having f) : f ∈ neededList env (metrics ++ having) := by
  obtain ⟨n, hn, m, hm, h⟩ := h
  refine List.mem_flatMap.mpr ⟨n, hn, ?_⟩
  rw [hm]
  rcases h with ⟨h1, rfl⟩ | ⟨h1, h2⟩
  · simp [h1]
  · simp only [h1, if_true]
    exact List.mem_filterMap.mpr ⟨_, h2, rfl⟩

theorem table_mem {table byName : List (String × PField)} {refs : List (String × List (Option PField))} {mappings : List MapData} {n : String} {f : PField}
    (h : (tableEnv table byName refs mappings).getField n = .ok f) : (n, f) ∈ table := by
  unfold tableEnv at h
  simp only at h
  cases hd : dictGet table n with
  | none => rw [hd] at h; cases h
  | some g =>
    rw [hd] at h
    injection h with h
    subst h
    exact dictGet_mem hd

theorem plainDate_of (d : String) (h : (!containsSub "subquery".toList (dotsToUnderscores d).toList && d.toList.any (fun c => c != '.' && c != '_' && !c.isDigit)) = true) :
    PlainDate d := by
  rw [Bool.and_eq_true, Bool.not_eq_true', List.any_eq_true] at h
  obtain ⟨h1, c, hc, h2⟩ := h
  simp only [Bool.and_eq_true, bne_iff_ne, Bool.not_eq_true'] at h2
  refine ⟨?_, c, hc, h2.1.1, h2.1.2, h2.2⟩
  rw [← containsSub_iff, h1]
  decide

def dRevenue : PField := ⟨"orders.revenue", "orders", "revenue", none, true, some "orders.order", ["subquery_0", "merged_result_orders_revenue"], false⟩
def dOrders : PField := ⟨"orders.count", "orders", "count", none, true, some "orders.order", ["subquery_0"], false⟩
def dSessions : PField := ⟨"sessions.count", "sessions", "count", none, true, some "sessions.session", ["subquery_4"], false⟩
def dRate : PField := ⟨"orders.rate", "orders", "rate", none, true, some "orders.order", ["merged_result_orders_rate"], true⟩
def dOrderDate : PField := ⟨"orders.order_date", "orders", "order", some "date", false, some "orders.order", ["subquery_0"], false⟩
def dSessionDate : PField := ⟨"sessions.session_date", "sessions", "session", some "date", false, some "sessions.session", ["subquery_4"], false⟩
def dRegion : PField := ⟨"orders.region", "orders", "region", none, false, some "orders.order", ["subquery_0"], false⟩
def dArea : PField := ⟨"sessions.area", "sessions", "area", none, false, some "sessions.session", ["subquery_4"], false⟩

/-- Orders and sessions, which cannot be joined; the region of an order is mapped to the area of a session. -/
def dEnv : PlanEnv :=
  tableEnv [("revenue", dRevenue), ("orders", dOrders), ("sessions", dSessions), ("rate", dRate), ("orders.order_date", dOrderDate),
      ("sessions.session_date", dSessionDate), ("orders.region", dRegion), ("sessions.area", dArea)]
    [("orders.order", dOrderDate), ("sessions.session", dSessionDate)]
    [("orders.rate", [some dOrders, some dSessions])]
    [⟨"orders.region", "subquery_0", [⟨"sessions.area", "subquery_4"⟩]⟩, ⟨"sessions.area", "subquery_4", [⟨"orders.region", "subquery_0"⟩]⟩]

def dWheres : List MWhere := [.group "OR" [.cond "orders.region" "= north", .cond "orders.order_date" "> 2024"], .cond "sessions.area" "= south",
  .cond "sessions.area" "= south"]

def dPlan : Plan :=
  { metrics := [("orders_order__subquery_0", [dOrders, dRevenue]), ("sessions_session__subquery_4", [dSessions])]
    dims := [("orders_order__subquery_0", [dOrderDate, dRegion]), ("sessions_session__subquery_4", [dSessionDate, dArea])]
    where_ := [("orders_order__subquery_0", [.group "OR" [.cond "orders.region" "= north", .cond "orders.order_date" "> 2024"], .cond "orders.region" "= south"]),
      ("sessions_session__subquery_4", [.group "OR" [.cond "sessions.area" "= north", .cond "sessions.session_date" "> 2024"], .cond "sessions.area" "= south"])]
    lookup := [("orders.order", [("sessions.session", "sessions_session__subquery_4")]), ("sessions.session", [("orders.order", "orders_order__subquery_0")]),
      ("orders.region", [("sessions.area", "sessions_session__subquery_4")]), ("sessions.area", [("orders.region", "orders_order__subquery_0")])] }

theorem dPlan_ok : derivePlan dEnv ["rate", "revenue"] ["revenue"] ["orders.order_date", "orders.region"] dWheres = .ok dPlan := by
  rfl

theorem dNames : ∀ n m f g, dEnv.getField n = .ok f → dEnv.getField m = .ok g → f.id = g.id → f = g := by
  intro n m f g hn hm
  have h1 := table_mem hn
  have h2 := table_mem hm
  revert h1 h2
  simp only [List.mem_cons, List.not_mem_nil, or_false, Prod.mk.injEq]
  rintro (⟨_, rfl⟩ | ⟨_, rfl⟩ | ⟨_, rfl⟩ | ⟨_, rfl⟩ | ⟨_, rfl⟩ | ⟨_, rfl⟩ | ⟨_, rfl⟩ | ⟨_, rfl⟩) (⟨_, rfl⟩ | ⟨_, rfl⟩ | ⟨_, rfl⟩ | ⟨_, rfl⟩ | ⟨_, rfl⟩ | ⟨_, rfl⟩ | ⟨_, rfl⟩ | ⟨_, rfl⟩) <;> decide

theorem dNeeded (f : PField) (h : Needed dEnv ["rate", "revenue"] ["revenue"] f) : f = dOrders ∨ f = dSessions ∨ f = dRevenue := by
  have := needed_mem _ _ _ _ h
  have e : neededList dEnv (["rate", "revenue"] ++ ["revenue"]) = [dOrders, dSessions, dRevenue, dRevenue] := by decide +kernel
  rw [e] at this
  simpa using this

theorem dPlain : PlainQuery dEnv ["rate", "revenue"] ["revenue"] ["orders.order_date", "orders.region"] where
  ids := by
    intro f g hf hg
    rcases dNeeded f hf with rfl | rfl | rfl <;> rcases dNeeded g hg with rfl | rfl | rfl <;> decide
  names := dNames
  measure := by
    intro f hf
    refine ⟨?_, ?_, ?_⟩
    · rcases dNeeded f hf with rfl | rfl | rfl <;> rfl
    · rcases dNeeded f hf with rfl | rfl | rfl <;> decide
    · intro c b hc hb
      have : b = dOrderDate ∨ b = dSessionDate := by
        rcases dNeeded f hf with rfl | rfl | rfl <;> injection hc with hc <;> subst hc <;> injection hb with hb <;> subst hb
        · exact .inl rfl
        · exact .inr rfl
        · exact .inl rfl
      rcases this with rfl | rfl <;> rfl
  dims := by
    intro d hd f hf
    have : f = dOrderDate ∨ f = dRegion := by
      simp only [List.mem_cons, List.not_mem_nil, or_false] at hd
      rcases hd with rfl | rfl <;> injection hf with hf <;> subst hf
      · exact .inl rfl
      · exact .inr rfl
    rcases this with rfl | rfl
    · exact ⟨rfl, fun c hc => by injection hc with hc; subst hc; exact plainDate_of _ (by decide +kernel), [0], by simp, by decide +kernel⟩
    · exact ⟨rfl, fun c hc => by injection hc with hc; subst hc; exact plainDate_of _ (by decide +kernel), [0], by simp, by decide +kernel⟩

theorem dTwo : TwoDates dEnv ["rate", "revenue"] ["revenue"] :=
  ⟨dOrders, dSessions, ⟨"rate", by simp, dRate, rfl, .inr ⟨rfl, by decide +kernel⟩⟩, ⟨"rate", by simp, dRate, rfl, .inr ⟨rfl, by decide +kernel⟩⟩, by decide⟩

/-- The hypotheses of C35 hold for a query of two metrics, a date and a mapped dimension. -/
example : ∀ k l, (k, l) ∈ dPlan.dims → ∀ x ∈ l, ∃ d ∈ ["orders.order_date", "orders.region"], ∃ f, dEnv.getField d = .ok f ∧
    ComesFrom dEnv (QueryDate dEnv ["rate", "revenue"] ["revenue"] ["orders.order_date", "orders.region"]) BuiltFrom k f x :=
  C35_attached_partial dEnv _ _ _ _ dPlan dPlan_ok dNames
    (by
      intro k hk
      simp only [dPlan, List.map_cons, List.map_nil, List.mem_cons, List.not_mem_nil, or_false] at hk
      rcases hk with rfl | rfl
      · exact ⟨"orders.order", [0], plainDate_of _ (by decide +kernel), by decide +kernel, by simp⟩
      · exact ⟨"sessions.session", [4], plainDate_of _ (by decide +kernel), by decide +kernel, by simp⟩)
    (by
      intro d hd
      simp only [dEnv, tableEnv, List.mem_cons, List.not_mem_nil, or_false] at hd
      rcases hd with rfl | rfl
      · refine ⟨by decide +kernel, ?_⟩
        intro m hm
        simp only [List.mem_singleton] at hm
        subst hm
        exact ⟨4, by decide, by decide +kernel⟩
      · refine ⟨by decide +kernel, ?_⟩
        intro m hm
        simp only [List.mem_singleton] at hm
        subst hm
        exact ⟨0, by decide, by decide +kernel⟩)

/-- The hypotheses of C36 hold for it: three metrics in two sub-queries. -/
example : (∀ f, Needed dEnv ["rate", "revenue"] ["revenue"] f → ∃ k, BelongsTo dEnv f k ∧ ∀ k', ComputedIn dPlan.metrics f k' ↔ k' = k) :=
  (C36_partial dEnv _ _ _ _ dPlan dPlan_ok dPlain (.inl dTwo)).1

/-- The hypotheses of C37 hold for it: a group with a mapped dimension and a date, and a condition written twice. -/
example := C37_applied dEnv _ _ _ _ dPlan dPlan_ok (by simp [StructuredList, Structured, dWheres]) dNames (by
  intro d hd
  simp only [dEnv, tableEnv, List.mem_cons, List.not_mem_nil, or_false] at hd
  rcases hd with rfl | rfl <;> decide +kernel)

/-- The hypotheses of the second theorem of C37 hold in the sub-query of the sessions. -/
example := C37_mapped_partial dEnv _ _ _ _ dPlan dPlan_ok (by simp [StructuredList, Structured, dWheres]) dPlain dTwo
  (by
    intro d hd
    simp only [dEnv, tableEnv, List.mem_cons, List.not_mem_nil, or_false] at hd
    rcases hd with rfl | rfl <;> decide +kernel)
  dSessions ⟨"rate", by simp, dRate, rfl, .inr ⟨rfl, by decide +kernel⟩⟩ "sessions.session" [4]
  ⟨by rw [← containsSub_iff]; decide +kernel, by decide +kernel⟩ ⟨"sessions.session", "subquery_4", rfl, rfl, by decide +kernel⟩
  (by
    intro n f hf
    have h1 := table_mem hf
    simp only [List.mem_cons, List.not_mem_nil, or_false, Prod.mk.injEq] at h1
    rcases h1 with ⟨_, rfl⟩ | ⟨_, rfl⟩ | ⟨_, rfl⟩ | ⟨_, rfl⟩ | ⟨_, rfl⟩ | ⟨_, rfl⟩ | ⟨_, rfl⟩ | ⟨_, rfl⟩ <;> decide +kernel)
  (by
    intro n f g hf hg hin
    have h1 := table_mem hf
    simp only [List.mem_cons, List.not_mem_nil, or_false, Prod.mk.injEq] at h1
    rw [← containsSub_iff] at hin
    rcases h1 with ⟨_, rfl⟩ | ⟨_, rfl⟩ | ⟨_, rfl⟩ | ⟨_, rfl⟩ | ⟨_, rfl⟩ | ⟨_, rfl⟩ | ⟨_, rfl⟩ | ⟨_, rfl⟩ <;> injection hg with hg <;> subst hg <;>
      revert hin <;> decide +kernel)

/-- The hypotheses of the second theorem of C35 hold for the region in the sub-query of the orders. -/
example : ComputedIn dPlan.dims dRegion "orders_order__subquery_0" :=
  C35_joined dEnv _ _ _ _ dPlan dPlan_ok dPlain dTwo dRevenue ⟨"revenue", by simp, dRevenue, rfl, .inl ⟨rfl, rfl⟩⟩ _
    ⟨"orders.order", "subquery_0", rfl, rfl, by decide +kernel⟩ "orders.region" (by simp) dRegion rfl
    (by
      rintro (⟨f, hf, e⟩ | ⟨d, hd, f, hf, e⟩)
      · rcases dNeeded f hf with rfl | rfl | rfl <;> exact absurd e (by decide +kernel)
      · simp only [List.mem_cons, List.not_mem_nil, or_false] at hd
        rcases hd with rfl | rfl <;> injection hf with hf <;> subst hf <;> exact absurd e (by decide +kernel))
    ⟨"subquery_0", by decide +kernel, "orders.order", [0], 0, plainDate_of _ (by decide +kernel), by decide +kernel, by simp, by decide +kernel⟩

/-! ### What is false -/

/-- C35 is false for mapped fields: a field of `subquery_1` is computed in the sub-query of `subquery_12`, where a mapped field of
`subquery_12` exists, because the names are compared by substring. -/
theorem C35_substring :
    ∃ (env : PlanEnv) (plan : Plan) (area zone : PField), derivePlan env ["revenue", "visits"] [] ["orders.region"] [] = .ok plan ∧
      area.graphs = ["subquery_1"] ∧ zone.graphs = ["subquery_12"] ∧
      dictGet plan.dims "visits_visit__subquery_12" = some [area] := by
  refine ⟨tableEnv [("revenue", dRevenue), ("visits", ⟨"visits.count", "visits", "count", none, true, some "visits.visit", ["subquery_12"], false⟩),
      ("orders.region", dRegion), ("stores.area", ⟨"stores.area", "stores", "area", none, false, some "stores.opened", ["subquery_1"], false⟩),
      ("visits.zone", ⟨"visits.zone", "visits", "zone", none, false, some "visits.visit", ["subquery_12"], false⟩)]
    [("orders.order", dOrderDate), ("visits.visit", ⟨"visits.visit_date", "visits", "visit", some "date", false, some "visits.visit", ["subquery_12"], false⟩)]
    [] [⟨"orders.region", "subquery_0", [⟨"stores.area", "subquery_1"⟩, ⟨"visits.zone", "subquery_12"⟩]⟩], _, _,
    ⟨"visits.zone", "visits", "zone", none, false, some "visits.visit", ["subquery_12"], false⟩, rfl, ?_, rfl, rfl⟩
  rfl

/-- C35 depends on the name of the date: one that contains `subquery_7` matches the join graph `subquery_7`. -/
theorem C35_odd_date : hashContains (cteName "log.subquery_7" "subquery_0") ["subquery_7"] = true := by decide +kernel

/-- C36 is false when the metrics have one canonical date: the dimension of the metric's own view deletes the metric. -/
theorem C36_dropped : ∃ plan, derivePlan dEnv ["revenue"] [] ["orders.region"] [] = .ok plan ∧
    Needed dEnv ["revenue"] [] dRevenue ∧ plan.metrics = [("orders_order__subquery_0", [])] := by
  refine ⟨_, rfl, ⟨"revenue", by simp, dRevenue, rfl, .inl ⟨rfl, rfl⟩⟩, by decide +kernel⟩

/-- C36: different canonical dates can share a sub-query, when their names differ only in where the dot is. -/
theorem C36_collision : cteName "web_orders.date" "subquery_0" = cteName "web.orders_date" "subquery_0" := by decide +kernel

/-- C37 does not cover SQL text: with such a condition there is no plan. -/
theorem C37_literal : derivePlan dEnv ["rate", "revenue"] [] ["orders.order_date"] [.literal "orders.region = 'north'"] matches .error .attributeError := by
  decide +kernel

/-- C37 is false when the name of a date ends with the name of another: in the sub-query of `my_orders.order` the condition on
`orders.order` stays on `orders.order` instead of being made on `my_orders.order`, the date of that sub-query. -/
theorem C37_suffix :
    ∃ (env : PlanEnv) (plan : Plan) (other : PField), derivePlan env ["revenue", "mine"] [] [] [.cond "orders.order_date" "> 2024"] = .ok plan ∧
      env.getFieldByName "my_orders.order" = .ok other ∧ other.graphs = ["subquery_0"] ∧
      dictGet plan.where_ "my_orders_order__subquery_0" matches some [.cond "orders.order_date" "> 2024"] := by
  refine ⟨tableEnv [("revenue", dRevenue), ("mine", ⟨"my_orders.count", "my_orders", "count", none, true, some "my_orders.order", ["subquery_0"], false⟩),
      ("orders.order_date", dOrderDate), ("my_orders.order_date", ⟨"my_orders.order_date", "my_orders", "order", some "date", false, some "my_orders.order", ["subquery_0"], false⟩)]
    [("orders.order", dOrderDate), ("my_orders.order", ⟨"my_orders.order_date", "my_orders", "order", some "date", false, some "my_orders.order", ["subquery_0"], false⟩)]
    [] [], _, _, rfl, rfl, rfl, ?_⟩
  decide +kernel

end ML
