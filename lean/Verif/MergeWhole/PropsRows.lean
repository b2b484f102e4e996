import Verif.MergeWhole.RowsSpec
import Verif.MergeWhole.PropsWhole
import Verif.MergeStmt.PropsAnswer
/-
C78: a merged query as a whole, from the plan to the rows of the warehouse.
-/
set_option autoImplicit false
namespace ML
open Spec

section
variable {Q : Type} {env : PlanEnv} {metrics having dimensions : List String}

theorem where_nodup {wheres : List MWhere} {plan : Plan} (hplan : derivePlan env metrics having dimensions wheres = .ok plan) :
    (plan.where_.map (·.1)).Nodup := by
  obtain ⟨mg, sec, q, dimFields, dm0, dm, hashes, used, st⟩ := derivePlan_steps env metrics having dimensions wheres plan hplan
  rw [(allWheres_spec env _ _ _ _ _ st.wheres).1, List.nodup_reverse]
  exact List.nodup_dedup _

/-- All that is known of one sub-query of the definition. -/
theorem sub_facts (write : SubAsk → Res (Q × Warehouse)) (wheres : List MWhere) (semicolon : Bool) (c : MergedConfig Q) (plan : Plan)
    (hplan : derivePlan env metrics having dimensions wheres = .ok plan)
    (h : resolveMerged write env false metrics having dimensions wheres semicolon = .ok c)
    (hp : PlainQuery env metrics having dimensions) (two : TwoDates env metrics having) (ht : TidyQuery env metrics having dimensions)
    (hdiff : DimensionsDiffer env metrics having dimensions) (dim : PField → MDim) (column : PField → String)
    (merged : List SMetric) (hav : List FObj) (fieldOf : ℕ → String) (limit : Option ℕ) :
    ∃ name, DefFacts env metrics having dimensions dim column (c.toDef dim column merged hav fieldOf limit) name ∧
      ∀ k, SubQuery env metrics having k → ∃ (ws : List MWhere) (s : Q) (w : Warehouse) (xs fs : List PField),
        dictGet plan.where_ k = some ws ∧ write ⟨fs.map PField.id, xs.map PField.id, ws, [], none⟩ = .ok (s, w) ∧ (name k, s) ∈ c.queries ∧
        dimsOf (c.toDef dim column merged hav fieldOf limit).src (name k) = xs.map dim ∧
        dictGet (c.toDef dim column merged hav fieldOf limit).metrics (name k) = some (fs.map column) ∧
        List.Forall₂ (fun d x => ∃ f, env.getField d = .ok f ∧ Counterpart env metrics having k f x) dimensions xs ∧
        (∀ f, f ∈ fs ↔ Needed env metrics having f ∧ BelongsTo env f k) ∧ (fs.map PField.id).Nodup ∧
        ∀ s', (name k, s') ∈ c.queries → s' = s := by
  obtain ⟨plan', hplan', hcfg, D⟩ := def_facts_plan write wheres semicolon c h hp two ht hdiff dim column merged hav fieldOf limit
  rw [hplan] at hplan'
  injection hplan' with hplan'
  subst hplan'
  refine ⟨_, D, fun k hk => ?_⟩
  obtain ⟨k1, k2, k3⟩ := plan_keys env metrics having dimensions wheres plan hplan hp
  obtain ⟨p1, p2, _, p4⟩ := C78_places env metrics having dimensions wheres plan hplan hp two ht hdiff
  obtain ⟨ca, _, cb3⟩ := C36_partial env metrics having dimensions wheres plan hplan hp (.inl two)
  obtain ⟨c1, c2, c3, c4, c5, _, ss, c7, c8, _⟩ := mergedConfig_spec write plan semicolon c k1 k2 hcfg
  have hn := joinHashes_nodup plan k1
  have hkm : k ∈ plan.metrics.map (·.1) := (p1 k).mpr hk
  have hkj : k ∈ joinHashes plan := (joinHashes_mem plan k).mpr (.inl hkm)
  obtain ⟨⟨k', fs⟩, hfs, e⟩ := List.mem_map.mp hkm
  simp only at e
  subst e
  have hgm : dictGet plan.metrics k' = some fs := dictGet_of_mem k1 hfs
  obtain ⟨i, hi, e⟩ := List.getElem_of_mem hkj
  have hlen := c7.length_eq
  have hi' : i < ss.length := by rw [← hlen]; exact hi
  have hz : (k', ss[i]) ∈ (joinHashes plan).zip ss := by
    have : i < ((joinHashes plan).zip ss).length := by rw [List.length_zip, ← hlen]; simpa using hi
    have h2 := List.getElem_mem this
    rwa [List.getElem_zip, e] at h2
  obtain ⟨a, ha, hw⟩ := (List.forall₂_iff_zip.mp c7).2 hz
  have hq : (shown (joinHashes plan) k', ss[i].1) ∈ c.queries := by
    rw [c8]
    exact List.mem_map.mpr ⟨_, hz, rfl⟩
  have honly : ∀ s', (shown (joinHashes plan) k', s') ∈ c.queries → s' = ss[i].1 := by
    intro s' hs'
    have hkeys : (c.queries.map (·.1)).Nodup := by
      rw [c8, List.map_map]
      have h1 : ((joinHashes plan).zip ss).map Prod.fst = joinHashes plan := List.map_fst_zip (le_of_eq hlen)
      have h2 := congrArg (List.map (shown (joinHashes plan))) h1
      rw [List.map_map] at h2
      have h3 : ((fun x : String × Q => x.1) ∘ fun p : String × Q × Warehouse => (shown (joinHashes plan) p.1, p.2.1)) = shown (joinHashes plan) ∘ Prod.fst := rfl
      rw [h3, h2]
      exact (List.nodup_map_iff_inj_on hn).mpr (fun a ha b hb e => shown_inj _ hn a b ha hb e)
    have e1 := dictGet_of_mem hkeys hs'
    rw [dictGet_of_mem hkeys hq] at e1
    injection e1 with e1
    exact e1.symm
  unfold subAsk at ha
  cases hws : dictGet plan.where_ k' with
  | none => rw [hws] at ha; cases ha
  | some ws =>
    rw [hws, hgm] at ha
    simp only [Except.ok.injEq, Option.getD_some] at ha
    subst ha
    have hmet : dictGet (c.toDef dim column merged hav fieldOf limit).metrics (shown (joinHashes plan) k') = some (fs.map column) := by
      refine dictGet_of_mem D.metricKeys ?_
      simp only [MergedConfig.toDef]
      rw [c1, List.map_map]
      exact List.mem_map.mpr ⟨_, hfs, rfl⟩
    have hin : ∀ f, f ∈ fs ↔ Needed env metrics having f ∧ BelongsTo env f k' := by
      intro f
      constructor
      · intro hf
        have hneed := (cb3 k' fs hfs).2 f hf
        obtain ⟨k2, hb, hu⟩ := ca f hneed
        have := (hu k').mp ⟨fs, hfs, f, hf, rfl⟩
        subst this
        exact ⟨hneed, hb⟩
      · rintro ⟨hneed, hb⟩
        obtain ⟨k2, hb2, hu⟩ := ca f hneed
        have : k2 = k' := by
          obtain ⟨a, b, e1, e2, rfl⟩ := hb
          obtain ⟨a', b', e1', e2', rfl⟩ := hb2
          rw [e1] at e1'
          rw [e2] at e2'
          injection e1' with e1'
          injection e2' with e2'
          rw [e1', e2']
        subst this
        obtain ⟨l, hl, g, hg, eg⟩ := (hu k2).mpr rfl
        have : l = fs := by
          have := dictGet_of_mem k1 hl
          rw [hgm] at this
          injection this with this
          exact this.symm
        subst this
        rwa [← hp.ids g f ((cb3 k2 l hl).2 g hg) hneed eg]
    by_cases hne : dimensions = []
    · have hnone : dictGet plan.dims k' = none := by
        cases hg : dictGet plan.dims k' with
        | none => rfl
        | some l => exact absurd hne ((p2 k').mp (List.mem_map.mpr ⟨_, dictGet_mem hg, rfl⟩)).1
      rw [hnone] at hw
      obtain ⟨l, hl, _, hall⟩ := D.dimsOf hk
      subst hne
      cases hall
      exact ⟨ws, _, _, [], fs, rfl, hw, hq, hl, hmet, .nil, hin, (cb3 k' fs hfs).1, honly⟩
    · obtain ⟨⟨k'', xs⟩, hxs, e⟩ := List.mem_map.mp ((p2 k').mpr ⟨hne, hk⟩)
      simp only at e
      subst e
      have hgd : dictGet plan.dims k'' = some xs := dictGet_of_mem k2 hxs
      rw [hgd] at hw
      refine ⟨ws, _, _, xs, fs, rfl, hw, hq, ?_, hmet, p4 k'' xs hxs, hin, (cb3 k'' fs hfs).1, honly⟩
      have : dictGet (c.toDef dim column merged hav fieldOf limit).src.dims (shown (joinHashes plan) k'') = some (xs.map dim) := by
        refine dictGet_of_mem D.dimKeys ?_
        simp only [MergedConfig.toDef]
        rw [c2, List.map_map]
        exact List.mem_map.mpr ⟨_, hxs, rfl⟩
      unfold dimsOf
      rw [this]
      rfl

end

section
variable {ρ : Type}

/-- What a sub-query of a merged query asks for. (for the proofs; it models no file in /repo) -/
theorem rows_ask (P : AnsProject) (w : Warehouse) (D : Db ρ) (conds : List MWhere → List FObj × List String) (condField : ℕ → String)
    (force : Bool) (env : PlanEnv) (metrics having dimensions : List String) (wheres : List MWhere) (semicolon : Bool) (c : MergedConfig Stmt)
    (plan : Plan) (hplan : derivePlan env metrics having dimensions wheres = .ok plan)
    (h : resolveMerged (writeSub P w conds condField force) env false metrics having dimensions wheres semicolon = .ok c)
    (hp : PlainQuery env metrics having dimensions) (two : TwoDates env metrics having) (ht : TidyQuery env metrics having dimensions)
    (hdiff : DimensionsDiffer env metrics having dimensions)
    (dim : PField → MDim) (column : PField → String) (hcol : ColumnsApart env metrics having dimensions dim column)
    (fld : PField → AnsField) (hread : ReadBy env metrics having dimensions dim column P force fld)
    (hwh : ∀ h ws, dictGet plan.where_ h = some ws → WellFormedFilters (conds ws).1)
    (merged : List SMetric) (hav : List FObj) (fieldOf : ℕ → String) (limit : Option ℕ) :
    ∃ name, DefFacts env metrics having dimensions dim column (c.toDef dim column merged hav fieldOf limit) name ∧
      ∀ k, SubQuery env metrics having k → ∃ (q : Question) (ds ms : List AnsField) (ws : List MWhere) (s : Stmt),
        dictGet plan.where_ k = some ws ∧ SubAsksFor env metrics having dimensions conds condField force fld ws k q ds ∧
        (name k, s) ∈ c.queries ∧ (∀ s', (name k, s') ∈ c.queries → s' = s) ∧
        (∀ (db : String → List (MRow ℚ)) (out : List (List Val)), s.Answers D out →
          db (name k) = out.map (namedRow (subColumns (c.toDef dim column merged hav fieldOf limit) (name k))) →
          AnswersSub P w D (c.toDef dim column merged hav fieldOf limit) db (name k) s.block.views q ds ms) ∧
        (dimensions ≠ [] → ds ≠ []) ∧ (∀ f, Needed env metrics having f → BelongsTo env f k → fld f ∈ ms) ∧
        ((∀ f, "__DEFAULT__" = f.id → P.get f.id ≠ .ok (fld f)) → ∃ out, s.Answers D out) := by
  obtain ⟨name, DF, hall⟩ := sub_facts (writeSub P w conds condField force) wheres semicolon c plan hplan h hp two ht hdiff dim column merged hav fieldOf limit
  refine ⟨name, DF, fun k hk => ?_⟩
  obtain ⟨ws, s, w', xs, fs, hws, hwr, hq, hdims, hmet, hxs, hfs, hnd, honly⟩ := hall k hk
  have hxd : ∀ x ∈ xs, DimensionOf env metrics having dimensions k x := by
    intro x hx
    obtain ⟨j, hj⟩ := List.getElem?_of_mem hx
    obtain ⟨dd, hdd, f, hf, hcx⟩ := forall₂_at hxs j x hj
    exact ⟨dd, List.mem_of_getElem? hdd, f, hf, hcx⟩
  have hxn : xs.Nodup := by
    rw [List.nodup_iff_injective_getElem]
    rintro ⟨i, hi⟩ ⟨j, hj⟩ e
    simp only at e
    obtain ⟨a, ha, f, hf, hcf⟩ := forall₂_at hxs i _ (List.getElem?_eq_getElem hi)
    obtain ⟨b, hb, g, hg, hcg⟩ := forall₂_at hxs j _ (List.getElem?_eq_getElem hj)
    have := hdiff.place hk ha hb hf hg hcf hcg e
    subst this
    rfl
  have hlx : xs.map (fun x => (fld x).label) = xs.map (fun x => (dim x).column) :=
    List.map_congr_left fun x hx => (hread.dims k x hk (hxd x hx)).2.1
  have hlf : fs.map (fun f => (fld f).label) = fs.map column :=
    List.map_congr_left fun f hf => (hread.columns f ((hfs f).mp hf).1).2.1
  have hbs : buildStmt P w (subQuestion (fs.map PField.id) (xs.map PField.id) (conds ws).1 (conds ws).2 condField force) = .ok s := by
    unfold writeSub at hwr
    simp only at hwr
    split at hwr
    · cases hwr
    · rename_i s' hs'
      simp only [Except.ok.injEq, Prod.mk.injEq] at hwr
      rw [hs', hwr.1]
  have hcols : subColumns (c.toDef dim column merged hav fieldOf limit) (name k) = (xs.map fld ++ fs.map fld).map AnsField.label := by
    unfold subColumns
    rw [show (dictGet (c.toDef dim column merged hav fieldOf limit).src.dims (name k)).getD [] = xs.map dim from hdims, hmet]
    simp only [Option.getD_some, List.map_append, List.map_map, Function.comp_def]
    rw [hlx, hlf]
  have hproper : Proper P (subQuestion (fs.map PField.id) (xs.map PField.id) (conds ws).1 (conds ws).2 condField force) (xs.map fld) (fs.map fld) := by
    refine ⟨?_, ?_, ?_, ?_, hwh k ws hws, ?_⟩
    · simp only [subQuestion, Names]
      rw [List.forall₂_map_left_iff, List.forall₂_map_right_iff, List.forall₂_same]
      exact fun x hx => (hread.dims k x hk (hxd x hx)).1
    · simp only [subQuestion, Names]
      rw [List.forall₂_map_left_iff, List.forall₂_map_right_iff, List.forall₂_same]
      exact fun f hf => (hread.columns f ((hfs f).mp hf).1).1
    · intro d hd
      obtain ⟨x, hx, rfl⟩ := List.mem_map.mp hd
      exact (hread.dims k x hk (hxd x hx)).2.2
    · intro m hm
      obtain ⟨f, hf, rfl⟩ := List.mem_map.mp hm
      exact (hread.columns f ((hfs f).mp hf).1).2.2
    · simp [subQuestion, WellFormedFilters]
  have hlabels : ((xs.map fld ++ fs.map fld).map AnsField.label).Nodup := by
    rw [List.map_append, List.map_map, List.map_map]
    simp only [Function.comp_def]
    rw [hlx, hlf, List.nodup_append]
    refine ⟨?_, ?_, ?_⟩
    · exact (List.nodup_map_iff_inj_on hxn).mpr (fun a ha b hb e => hcol.dims k k a b hk hk (hxd a ha) (hxd b hb) e)
    · exact (List.nodup_map_iff_inj_on (hnd.of_map _)).mpr (fun a ha b hb e => hcol.columns a b ((hfs a).mp ha).1 ((hfs b).mp hb).1 e)
    · intro a ha b hb
      obtain ⟨x, hx, rfl⟩ := List.mem_map.mp ha
      obtain ⟨f, hf, rfl⟩ := List.mem_map.mp hb
      exact hcol.apart k x f hk (hxd x hx) ((hfs f).mp hf).1
  refine ⟨_, xs.map fld, fs.map fld, ws, s, hws, ⟨xs, fs, hxs, hfs, hnd.of_map _, rfl, rfl⟩, hq, honly, ?_, ?_, ?_, ?_⟩
  · intro db out hout hdbn
    refine ⟨⟨_, _, _, rfl⟩, hproper, ?_, hlabels, ?_, ?_, s, out, hbs, rfl, hout, ?_⟩
    · rcases hread.grouped with e | e
      · exact .inl e
      · right
        intro m hm d hd hpk
        obtain ⟨x, hx, rfl⟩ := List.mem_map.mp hd
        obtain ⟨f, hf, rfl⟩ := List.mem_map.mp (List.mem_of_mem_head? hm)
        exact e k x f hk (hxd x hx) ((hfs f).mp hf).1 ((hfs f).mp hf).2 hpk
    · rw [hdims, List.map_map, List.map_map]
      exact hlx.symm
    · left
      rw [hmet, List.map_map]
      exact congrArg some hlf.symm
    · rw [hdbn, hcols]
  · intro hne e
    rw [List.map_eq_nil_iff] at e
    subst e
    cases hxs
    exact hne rfl
  · exact fun f hf hb => List.mem_map.mpr ⟨f, (hfs f).mpr ⟨hf, hb⟩, rfl⟩
  · intro hdef
    refine C60_sub_answered P w D _ _ _ _ _ _ s hbs _ _ hproper hlabels ?_
    intro hin
    rcases List.mem_append.mp hin with h | h
    · obtain ⟨f, hf, e⟩ := List.mem_map.mp h
      exact hdef f e.symm (hread.columns f ((hfs f).mp hf).1).1
    · obtain ⟨x, hx, e⟩ := List.mem_map.mp h
      exact hdef x e.symm (hread.dims k x hk (hxd x hx)).1

/-- C78 (i): the whole way, for metrics of two canonical dates. Each sub-query asks for what stands for the dimensions there, for the metrics
that belong to it, and under the conditions of the merged query as they read there. When the warehouse answers the sub-queries, the answer of the
merged query has one line for each combination of dimension values that occurs on a row of the warehouse that passes the conditions of one
of the sub-queries, and whose metrics pass the filters on metrics; in it, the value of a needed metric is its aggregate over exactly the rows
with these values that pass the conditions of the sub-query it belongs to (NULL if there are none). At most `limit` lines. Missing for
the full statement: NULL dimension values, and more than two canonical dates (`C78_lines_partial`). -/
theorem C78_rows_partial (P : AnsProject) (w : Warehouse) (D : Db ρ) (conds : List MWhere → List FObj × List String) (condField : ℕ → String)
    (force : Bool) (env : PlanEnv) (metrics having dimensions : List String) (wheres : List MWhere) (semicolon : Bool) (c : MergedConfig Stmt)
    (plan : Plan) (hplan : derivePlan env metrics having dimensions wheres = .ok plan)
    (h : resolveMerged (writeSub P w conds condField force) env false metrics having dimensions wheres semicolon = .ok c)
    (hp : PlainQuery env metrics having dimensions) (two : TwoDates env metrics having) (ht : TidyQuery env metrics having dimensions)
    (hdiff : DimensionsDiffer env metrics having dimensions) (hfit : FitsTogether env metrics having dimensions) (hne : dimensions ≠ [])
    (date₁ date₂ : String) (hdates : ∀ x, MetricDate env metrics having x → x = date₁ ∨ x = date₂)
    (dim : PField → MDim) (column : PField → String) (hcol : ColumnsApart env metrics having dimensions dim column)
    (fld : PField → AnsField) (hread : ReadBy env metrics having dimensions dim column P force fld)
    (hst : StructuredList wheres) (hwh : ∀ h ws, dictGet plan.where_ h = some ws → WellFormedFilters (conds ws).1)
    (hnull : ∀ h ws q ds views, SubQuery env metrics having h → dictGet plan.where_ h = some ws →
      SubAsksFor env metrics having dimensions conds condField force fld ws h q ds → QueryViews P q views → NoNulls P w D views q ds)
    (merged : List SMetric) (hav : List FObj) (fieldOf : ℕ → String) (limit : Option ℕ) (d : MergedDef)
    (hd : d = c.toDef dim column merged hav fieldOf limit) (db : String → List (MRow ℚ))
    (hdb : ∀ n s, (n, s) ∈ c.queries → ∃ out, s.Answers D out ∧ db n = out.map (namedRow (subColumns d n)))
    (get : String → List Char → Res SMetric) (lookup : String → Res SMetric) (depth : ℕ) (pieces : SMetric → List Piece)
    (hget : ∀ v m g, get v m = .ok g → OrdinaryMetric pieces g) (hm : ∀ m ∈ merged, OrdinaryMetric pieces m)
    (s : MStmt) (hs : mergedStatement get lookup depth d = .ok s) (hma : MergedApart d) (W : MWarehouse ℚ)
    (hnames : ∀ m ∈ merged, ∀ t, formulaText get pieces depth m = some t → ∀ x ∈ W.names t, ∃ p ∈ d.metrics, x ∈ p.2)
    (hwf : WellFormedFilters hav) (hon : OnMetrics (fun i => (lookup (fieldOf i)).map SMetric.column) d)
    (hz : limit ≠ some 0 ∨ c.warehouse ≠ .sqlServer ∧ c.warehouse ≠ .azureSynapse)
    (out : List (List Val)) (hans : s.Answers W db out) :
    ∃ (views : String → List String) (q : String → Question) (ds : String → List AnsField) (ws : String → List MWhere),
      (∀ h, SubQuery env metrics having h → SubAsksFor env metrics having dimensions conds condField force fld (ws h) h (q h) (ds h) ∧
        QueryViews P (q h) (views h) ∧ (ws h).Nodup ∧ ∃ ws',
          List.Forall₂ (Rewritten (Reaches env (QueryDate env metrics having dimensions) (plan.metrics.flatMap (·.2)) h)) wheres ws' ∧
          (ws h).Sublist ws' ∧ ∀ x ∈ ws', x ∈ ws h) ∧
      ∃ (ks : List (List ℚ)) (line : List ℚ → List Val) (lines : List (List Val)), ks.Nodup ∧
        (∀ k, k ∈ ks ↔ (∃ h, SubQuery env metrics having h ∧ Occurs P w D (views h) (q h) (ds h) k) ∧
          PassesFilters W (formulaText get pieces depth) (fun i => (lookup (fieldOf i)).map SMetric.column) d db k) ∧
        (∀ k ∈ ks, List.Forall₂ (Shows W (formulaText get pieces depth) d db k) (s.select.map (·.2)) (line k)) ∧
        (∀ h f k, SubQuery env metrics having h → Needed env metrics having f → BelongsTo env f h →
          MetricFor P w D (views h) (q h) (ds h) (fld f) k (metricAt d db k (column f))) ∧
        lines.Perm (ks.map line) ∧ LimitedTo limit lines out := by
  subst hd
  obtain ⟨name, DF, hall⟩ := rows_ask P w D conds condField force env metrics having dimensions wheres semicolon c plan hplan h hp two ht hdiff dim
    column hcol fld hread hwh merged hav fieldOf limit
  obtain ⟨_, hap, _, _, _⟩ := C78_match _ env metrics having dimensions wheres semicolon c h hp two ht hdiff hfit dim column hcol merged hav fieldOf limit
  obtain ⟨p1, p2, _, _⟩ := C78_places env metrics having dimensions wheres plan hplan hp two ht hdiff
  haveI : Nonempty Question := ⟨subQuestion [] [] [] [] (fun _ => "") false⟩
  classical
  have hall' : ∀ k, SubQuery env metrics having k → ∃ (views : List String) (q : Question) (ds ms : List AnsField) (ws : List MWhere),
      dictGet plan.where_ k = some ws ∧ SubAsksFor env metrics having dimensions conds condField force fld ws k q ds ∧
      AnswersSub P w D (c.toDef dim column merged hav fieldOf limit) db (name k) views q ds ms ∧
      (dimensions ≠ [] → ds ≠ []) ∧ ∀ f, Needed env metrics having f → BelongsTo env f k → fld f ∈ ms := by
    intro k hk
    obtain ⟨q, ds, ms, ws, s, h1, h2, h3, _, h5, h6, h7, _⟩ := hall k hk
    obtain ⟨out, ho, e⟩ := hdb _ _ h3
    exact ⟨_, q, ds, ms, ws, h1, h2, h5 db out ho e, h6, h7⟩
  choose! views q ds ms ws hws hask hans' hds hms using hall'
  have hsub := fun k hk => C60_sub P w D _ db (name k) (views k) (q k) (ds k) (ms k) (hans' k hk) (hds k hk hne) hap
  have hnn : ∀ n ∈ c.hashes, ∀ t ∈ db n, ∀ v ∈ keyOf (c.toDef dim column merged hav fieldOf limit).src n t, v ≠ none := by
    intro n hn
    obtain ⟨k, hk, rfl⟩ := (DF.hashes n).mp hn
    exact (hsub k hk).2.2.2.1 (hnull k (ws k) (q k) (ds k) (views k) hk (hws k hk) (hask k hk) (hsub k hk).1)
  have hgrp : ∀ n ∈ c.hashes, ((db n).map (keyOf (c.toDef dim column merged hav fieldOf limit).src n)).Nodup := by
    intro n hn
    obtain ⟨k, hk, rfl⟩ := (DF.hashes n).mp hn
    exact (hsub k hk).2.1
  obtain ⟨ks, line, lines, r1, r2, r3, r4, r5⟩ := C78_two _ env metrics having dimensions wheres semicolon c h hp two ht hdiff hfit hne date₁ date₂ hdates
    dim column hcol merged hav fieldOf limit _ rfl get lookup depth pieces hget hm s hs db hnn hgrp hma W hnames hwf hon hz out hans
  refine ⟨views, q, ds, ws, fun k hk => ?_, ks, line, lines, r1, fun k => ?_, r3, ?_, r4, r5⟩
  · refine ⟨hask k hk, (hsub k hk).1, ?_⟩
    obtain ⟨ws', hw1, hw2⟩ := C37_applied env metrics having dimensions wheres plan hplan hst hp.names (by
      intro m hmm hin
      refine (ht.maps m hmm).1 ?_
      rcases List.mem_append.mp hin with h | h
      · exact (p1 _).mp h
      · exact ((p2 _).mp h).2) k (List.mem_append.mpr (.inl ((p1 k).mpr hk)))
    have : ws' = ws k := by
      have h1 := dictGet_of_mem (where_nodup hplan) hw1
      rw [hws k hk] at h1
      injection h1 with h1
      exact h1.symm
    subst this
    exact hw2
  · rw [r2 k]
    constructor
    · rintro ⟨⟨n, hn, hpr⟩, hf⟩
      obtain ⟨k', hk', rfl⟩ := (DF.hashes n).mp hn
      exact ⟨⟨k', hk', ((hsub k' hk').2.2.1 k).mp hpr⟩, hf⟩
    · rintro ⟨⟨k', hk', ho⟩, hf⟩
      exact ⟨⟨name k', (DF.hashes _).mpr ⟨k', hk', rfl⟩, ((hsub k' hk').2.2.1 k).mpr ho⟩, hf⟩
  · intro k' f k hk' hf hb
    have := (hsub k' hk').2.2.2.2 (fld f) (hms k' hk' f hf hb) k
    rwa [(hread.columns f hf).2.1] at this

/-- C78 (j): the sub-queries of a resolved query are answered on every database, so that there always are tables as `C78_rows_partial` needs
them. -/
theorem C78_tables (P : AnsProject) (w : Warehouse) (D : Db ρ) (conds : List MWhere → List FObj × List String) (condField : ℕ → String)
    (force : Bool) (env : PlanEnv) (metrics having dimensions : List String) (wheres : List MWhere) (semicolon : Bool) (c : MergedConfig Stmt)
    (plan : Plan) (hplan : derivePlan env metrics having dimensions wheres = .ok plan)
    (h : resolveMerged (writeSub P w conds condField force) env false metrics having dimensions wheres semicolon = .ok c)
    (hp : PlainQuery env metrics having dimensions) (two : TwoDates env metrics having) (ht : TidyQuery env metrics having dimensions)
    (hdiff : DimensionsDiffer env metrics having dimensions)
    (dim : PField → MDim) (column : PField → String) (hcol : ColumnsApart env metrics having dimensions dim column)
    (fld : PField → AnsField) (hread : ReadBy env metrics having dimensions dim column P force fld)
    (hwh : ∀ h ws, dictGet plan.where_ h = some ws → WellFormedFilters (conds ws).1) (hdef : ∀ f, P.get "__DEFAULT__" ≠ .ok f)
    (merged : List SMetric) (hav : List FObj) (fieldOf : ℕ → String) (limit : Option ℕ) (d : MergedDef)
    (hd : d = c.toDef dim column merged hav fieldOf limit) :
    ∃ db : String → List (MRow ℚ), ∀ n s, (n, s) ∈ c.queries → ∃ out, s.Answers D out ∧ db n = out.map (namedRow (subColumns d n)) := by
  subst hd
  obtain ⟨name, DF, hall⟩ := rows_ask P w D conds condField force env metrics having dimensions wheres semicolon c plan hplan h hp two ht hdiff dim
    column hcol fld hread hwh merged hav fieldOf limit
  have hex : ∀ n, n ∈ c.hashes → ∃ out : List (List Val), ∀ s, (n, s) ∈ c.queries → s.Answers D out := by
    intro n hn
    obtain ⟨k, hk, rfl⟩ := (DF.hashes n).mp hn
    obtain ⟨q, ds, ms, ws, s, _, _, _, h4, _, _, _, h8⟩ := hall k hk
    obtain ⟨out, ho⟩ := h8 (fun f e => e ▸ hdef _)
    exact ⟨out, fun s' hs' => h4 s' hs' ▸ ho⟩
  choose! out hout using hex
  refine ⟨fun n => (out n).map (namedRow (subColumns (c.toDef dim column merged hav fieldOf limit) n)), fun n s hs => ⟨out n, hout n ?_ s hs, rfl⟩⟩
  obtain ⟨plan', _, name', _, _, _, hh, _, hqs, _⟩ := C78_subqueries _ env metrics having dimensions wheres semicolon c h hp
  obtain ⟨k, hk, rfl, _⟩ := (hqs n s).mp hs
  exact (hh _).mpr ⟨k, hk, rfl⟩

end
end ML
