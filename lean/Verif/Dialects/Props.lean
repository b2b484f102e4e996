import Verif.Dialects.Spec
import Verif.Local.Props
import Verif.Answer.PropsMore
/-
C89: which warehouse the data is in does not change the lines.
-/
set_option autoImplicit false
namespace ML
open Spec

section
variable {ρ : Type}

theorem corrects_iff (w : Warehouse) : supportsSymmetric w = true ↔ CorrectsDoubleCounting w := by
  unfold CorrectsDoubleCounting
  cases w <;> decide

theorem agg_same {m : Measure} {w w' : Warehouse} {fpk : FunctionalPk} {a a' : Agg} (h : aggregateSql m w fpk = .ok a) (h' : aggregateSql m w' fpk = .ok a')
    (hk : SameKind w w' ∨ NothingToCorrect fpk m) : a = a' := by
  have hplain : ∀ (v v' : Warehouse) (b b' : Agg), supportsSymmetric v = true → supportsSymmetric v' = false → NothingToCorrect fpk m → aggregateSql m v fpk = .ok b →
      aggregateSql m v' fpk = .ok b' → b = b' := by
    intro v v' b b' hv hv' hn hb hb'
    have hns : m.type ∈ [MeasureType.max, .min, .countDistinct, .median] ∨ needsSymmetric m fpk = .ok false := by
      rcases hn with hn | hn | ⟨id, pk, h1, h2⟩
      · exact .inl hn
      · right; rw [hn]; rfl
      · right; rw [h2]; simp [needsSymmetric, h1]
    cases ht : m.type <;> simp only [ht, List.mem_cons, List.not_mem_nil, or_false, reduceCtorEq, or_self, false_or, true_or, or_true] at hns <;>
      simp only [aggregateSql, ht, hv, hv', hns, if_true, Bool.false_eq_true, if_false, Except.ok.injEq, reduceCtorEq] at hb hb'
    all_goals first
      | exact hb.symm.trans hb'
      | (cases v <;> cases v' <;> simp_all)
  have hb : supportsSymmetric w = supportsSymmetric w' ∨ NothingToCorrect fpk m := by
    rcases hk with hk | hk
    · left
      rw [Bool.eq_iff_iff, corrects_iff, corrects_iff]
      exact hk
    · exact .inr hk
  by_cases he : supportsSymmetric w = supportsSymmetric w'
  · cases ht : m.type <;> simp only [aggregateSql, ht, he] at h h'
    all_goals first
      | (rw [h] at h'; exact Except.ok.inj h')
      | (cases w <;> cases w' <;> simp_all)
  · have hn := hb.resolve_left he
    cases hw : supportsSymmetric w with
    | true =>
      have hw' : supportsSymmetric w' = false := by
        cases hx : supportsSymmetric w' with
        | true => exact absurd (hw.trans hx.symm) he
        | false => rfl
      exact hplain w w' a a' hw hw' hn h h'
    | false =>
      have hw' : supportsSymmetric w' = true := by
        cases hx : supportsSymmetric w' with
        | false => exact absurd (hw.trans hx.symm) he
        | true => rfl
      exact (hplain w' w a' a hw' hw hn h' h).symm

theorem value_same (E : Engine ρ) {w w' : Warehouse} {fpk : FunctionalPk} {f : AnsField}
    (h : ∀ m, f.sql = .measure m → (∃ a, aggregateSql m w fpk = .ok a) ∧ (∃ a, aggregateSql m w' fpk = .ok a) ∧ (SameKind w w' ∨ NothingToCorrect fpk m)) :
    valueOf E w fpk f = valueOf E w' fpk f := by
  funext G
  unfold valueOf
  cases hf : f.sql with
  | dimension s => rfl
  | measure m =>
    obtain ⟨⟨a, ha⟩, ⟨a', ha'⟩, hk⟩ := h m hf
    simp only
    rw [ha, ha', agg_same ha ha' hk]

theorem compared_same (D : Db ρ) {P : AnsProject} {w w' : Warehouse} {fpk : FunctionalPk} {fieldOf : Nat → String} {i : Nat}
    (h : ∀ f m, P.get (fieldOf i) = .ok f → f.sql = .measure m →
      (∃ a, aggregateSql m w fpk = .ok a) ∧ (∃ a, aggregateSql m w' fpk = .ok a) ∧ (SameKind w w' ∨ NothingToCorrect fpk m)) (G : List ρ) :
    compared D P w fpk fieldOf G i = compared D P w' fpk fieldOf G i := by
  unfold compared
  cases hg : P.get (fieldOf i) with
  | error e => rfl
  | ok f =>
    have hv := value_same D.engine (fun m => h f m hg)
    simp only
    cases hf : f.sql with
    | dimension s => simp only; rw [hv]
    | measure m =>
      obtain ⟨⟨a, ha⟩, ⟨a', ha'⟩, -⟩ := h f m hg hf
      simp only
      rw [ha, ha', hv]

/-- The metrics of a query that groups have SQL. -/
theorem metrics_sql {P : AnsProject} {w : Warehouse} {q : Question} {s : Stmt} (hs : buildStmt P w q = .ok s) {ds ms : List AnsField} (hp : Proper P q ds ms) (hg : GroupsRows q ds ms) :
    ∃ views, QueryViews P q views ∧ ∀ f ∈ ms, ∀ m, f.sql = .measure m → ∃ a, aggregateSql m w (P.fpk views) = .ok a := by
  obtain ⟨views, hv, hb, -⟩ := buildStmt_ok hs
  obtain ⟨c, fs, hc, hf, -, -, -, -, -, -, -, -, hsel, -, -⟩ := buildBlock_ok hb
  have hfs : fs = ds ++ ms := (getAll_names.mp hf).unique (hp.dims.append hp.metrics)
  subst hfs
  have hse := groupSelect_ok (hsel ((groups_iff hc hp.dims hp.metrics).mpr hg)).1
  refine ⟨views, hv, fun f hfm m hm => ?_⟩
  obtain ⟨x, -, -, hx⟩ := forall₂_mem_left hse (List.mem_append_right _ hfm)
  unfold fieldExpr at hx
  rw [hm] at hx
  simp only at hx
  cases ha : aggregateSql m w (P.fpk views) with
  | error e => rw [ha] at hx; cases hx
  | ok a => exact ⟨a, rfl⟩

theorem views_iff {P : AnsProject} {q : Question} {views views' : List String} (hv : QueryViews P q views) (hv' : QueryViews P q views') : ∀ v, v ∈ views ↔ v ∈ views' := by
  intro v
  obtain ⟨fs, h1, -, h2⟩ := hv
  obtain ⟨fs', h1', -, h2'⟩ := hv'
  rw [h2, h2', h1.unique h1']

/-- What the two statements have in common, for one list of views. -/
structure TwoWarehouses (D : Db ρ) (P : AnsProject) (w w' : Warehouse) (q : Question) (ds ms : List AnsField) (views : List String) : Prop where
  value : GroupsRows q ds ms → ∀ f ∈ ds ++ ms, valueOf D.engine w (P.fpk views) f = valueOf D.engine w' (P.fpk views) f
  wheres : PassesWhere D P w views q = PassesWhere D P w' views q
  havings : GroupsRows q ds ms → PassesHaving D P w views q = PassesHaving D P w' views q

theorem two_warehouses {P : AnsProject} {w w' : Warehouse} {q : Question} {s s' : Stmt} (hs : buildStmt P w q = .ok s) (hs' : buildStmt P w' q = .ok s') {ds ms : List AnsField}
    (hp : Proper P q ds ms) (hcmp : Comparable P w w' q ms) (D : Db ρ) (hset : SetOfViews D P) {views : List String} (hv : QueryViews P q views) :
    TwoWarehouses D P w w' q ds ms views := by
  have hfpk : ∀ v, QueryViews P q v → P.fpk v = P.fpk views := fun v h => (hset v views (views_iff h hv)).2.1
  have hacc : ∀ v, QueryViews P q v → ∀ i, i ∈ P.access views → i ∈ P.access v := fun v h i hi => ((hset v views (views_iff h hv)).2.2 i).mpr hi
  have hk : ∀ f m, f.sql = .measure m → (f ∈ ms ∨ ∃ i, Compares P views q i ∧ P.get (q.fieldOf i) = .ok f) → SameKind w w' ∨ NothingToCorrect (P.fpk views) m := by
    intro f m hm hu
    rcases hcmp with h | h
    · exact .inl h
    · exact .inr (h views hv f m hm hu)
  obtain ⟨v1, hv1, h1⟩ := C55_comparisons P w q s hs ds ms hp.dims hp.metrics
  obtain ⟨v2, hv2, h2⟩ := C55_comparisons P w' q s' hs' ds ms hp.dims hp.metrics
  rw [hfpk v1 hv1] at h1
  rw [hfpk v2 hv2] at h2
  have hcond : ∀ i, (i ∈ P.access views ∨ (∃ l ∈ leavesList q.wheres, i ∈ l.first :: l.rest) ∨ GroupsRows q ds ms ∧ ∃ l ∈ leavesList q.havings, i ∈ l.first :: l.rest) →
      ∀ G : List ρ, compared D P w (P.fpk views) q.fieldOf G i = compared D P w' (P.fpk views) q.fieldOf G i := by
    intro i hi G
    refine compared_same D (fun f m hf hm => ?_) G
    obtain ⟨f1, hf1, ha1⟩ := h1 i (hi.imp_left (hacc v1 hv1 i))
    obtain ⟨f2, hf2, ha2⟩ := h2 i (hi.imp_left (hacc v2 hv2 i))
    rw [hf] at hf1 hf2
    cases hf1
    cases hf2
    refine ⟨ha1 m hm, ha2 m hm, hk f m hm (.inr ⟨i, ?_, hf⟩)⟩
    exact hi.imp_right (fun h => h.imp_right And.right)
  refine ⟨fun hg f hfm => ?_, ?_, fun hg => ?_⟩
  · refine value_same _ fun m hm => ?_
    obtain ⟨v3, hv3, h3⟩ := metrics_sql hs hp hg
    obtain ⟨v4, hv4, h4⟩ := metrics_sql hs' hp hg
    rw [hfpk v3 hv3] at h3
    rw [hfpk v4 hv4] at h4
    have hfm' : f ∈ ms := by
      rcases List.mem_append.mp hfm with h | h
      · obtain ⟨x, hx⟩ := hp.dimension f h
        rw [hm] at hx
        cases hx
      · exact h
    exact ⟨h3 f hfm' m hm, h4 f hfm' m hm, hk f m hm (.inl hfm')⟩
  · funext r
    unfold PassesWhere
    rw [meanings_congr _ (compared D P w' (P.fpk views) q.fieldOf [r]) q.wheres (fun l hl i hi => hcond i (.inr (.inl ⟨l, hl, hi⟩)) [r])]
    refine propext (and_congr_left fun _ => forall_congr' fun i => forall_congr' fun hi => ?_)
    rw [hcond i (.inl hi) [r]]
  · funext G
    unfold PassesHaving
    rw [meanings_congr _ (compared D P w' (P.fpk views) q.fieldOf G) q.havings (fun l hl i hi => hcond i (.inr (.inr ⟨hg, l, hl, hi⟩)) G)]

theorem having_views {D : Db ρ} {P : AnsProject} (hset : SetOfViews D P) (w : Warehouse) {views views' : List String} (hvv : ∀ v, v ∈ views ↔ v ∈ views') (q : Question) :
    PassesHaving D P w views' q = PassesHaving D P w views q := by
  funext G
  unfold PassesHaving
  rw [← (hset views views' hvv).2.1]

/-- C89 (a): the lines of a query that groups are the same on two warehouses, up to their order, when the layer corrects double counting for both or for none, or when there is nothing
to correct. -/
theorem C89_lines (P : AnsProject) (w w' : Warehouse) (q : Question) (s s' : Stmt) (hs : buildStmt P w q = .ok s) (hs' : buildStmt P w' q = .ok s') (ds ms : List AnsField)
    (hp : Proper P q ds ms) (hne : ds ≠ []) (hg : GroupsRows q ds ms) (hq : ShowsAll w q) (hq' : ShowsAll w' q) (hl : LabelsDiffer P) (hcmp : Comparable P w w' q ms)
    (D : Db ρ) (hset : SetOfViews D P) (out out' : List (List Val)) (ha : s.Answers D out) (ha' : s'.Answers D out') : out.Perm out' := by
  obtain ⟨views, hv, ht⟩ := answer_table P w q s hs ds ms hp hg hne hq hl D out ha
  obtain ⟨views', hv', ht'⟩ := answer_table P w' q s' hs' ds ms hp hg hne hq' hl D out' ha'
  have hvv := views_iff hv hv'
  obtain ⟨e1, e2, -⟩ := hset views views' hvv
  have two := two_warehouses hs hs' hp hcmp D hset hv
  rw [← e1, ← e2, where_views hset w' hvv, having_views hset w' hvv, ← two.wheres, ← two.havings hg] at ht'
  have hds : (fun r => ds.map (fun d => valueOf D.engine w' (P.fpk views) d [r])) = fun r => ds.map (fun d => valueOf D.engine w (P.fpk views) d [r]) := by
    funext r
    exact List.map_congr_left fun d hd => (congrFun (two.value hg d (List.mem_append_left _ hd)) _).symm
  have hms : (fun G => ms.map (fun m => valueOf D.engine w' (P.fpk views) m G)) = fun G => ms.map (fun m => valueOf D.engine w (P.fpk views) m G) := by
    funext G
    exact List.map_congr_left fun m hm => (congrFun (two.value hg m (List.mem_append_right _ hm)) _).symm
  rw [hds, hms] at ht'
  refine (List.perm_ext_iff_of_nodup (table_nodup ht) (table_nodup ht')).mpr fun l => ?_
  rw [table_iff ht, table_iff ht']

/-- C89 (b): the same for totals, which are one line or none. -/
theorem C89_total (P : AnsProject) (w w' : Warehouse) (q : Question) (s s' : Stmt) (hs : buildStmt P w q = .ok s) (hs' : buildStmt P w' q = .ok s') (ms : List AnsField)
    (hp : Proper P q [] ms) (hgf : q.groupFilters = []) (hz : q.limit ≠ some 0) (hcmp : Comparable P w w' q ms)
    (D : Db ρ) (hset : SetOfViews D P) (out out' : List (List Val)) (ha : s.Answers D out) (ha' : s'.Answers D out') : out = out' := by
  obtain ⟨views, p, hv, hp1, h1, h2⟩ := C55_total P w q s hs ms hp hgf hz D out ha
  obtain ⟨views', p', hv', hp1', h1', h2'⟩ := C55_total P w' q s' hs' ms hp hgf hz D out' ha'
  have hvv := views_iff hv hv'
  obtain ⟨e1, e2, -⟩ := hset views views' hvv
  have two := two_warehouses hs hs' hp hcmp D hset hv
  have hg : GroupsRows q [] ms := .inr fun m _ d hd => absurd hd List.not_mem_nil
  rw [where_views hset w' hvv, ← two.wheres] at hp1'
  have hpp : p' = p := by
    funext r
    rw [Bool.eq_iff_iff, hp1, hp1']
  subst hpp
  rw [← e1, ← e2, having_views hset w' hvv, ← two.havings hg] at h1'
  rw [← e1, having_views hset w' hvv, ← two.havings hg] at h2'
  by_cases hh : PassesHaving D P w views q ((D.rows views).filter p')
  · rw [h1 hh, h1' hh]
    congr 1
    exact List.map_congr_left fun m hm => congrFun (two.value hg m hm) _
  · rw [h2 hh, h2' hh]

/-- C89 (c): a query of details (a row per key) shows the same lines on any two warehouses, up to their order, when its filters compare nothing that is corrected. -/
theorem C89_detail (P : AnsProject) (w w' : Warehouse) (q : Question) (s s' : Stmt) (hs : buildStmt P w q = .ok s) (hs' : buildStmt P w' q = .ok s') (ds ms : List AnsField)
    (hp : Proper P q ds ms) (hg : ¬ GroupsRows q ds ms) (hgf : q.groupFilters = []) (hl : ((ds ++ ms).map AnsField.label).Nodup) (hz : q.limit = none)
    (hdim : ∀ views, QueryViews P q views → ∀ i, i ∈ P.access views ∨ (∃ l ∈ leavesList q.wheres, i ∈ l.first :: l.rest) → ∀ f, P.get (q.fieldOf i) = .ok f → ∃ x, f.sql = .dimension x)
    (D : Db ρ) (hset : SetOfViews D P) (out out' : List (List Val)) (ha : s.Answers D out) (ha' : s'.Answers D out') : out.Perm out' := by
  obtain ⟨views, p, lines, hv, hp1, hperm, hlim⟩ := C55_detail P w q s hs ds ms hp hg hgf hl (.inl (by rw [hz]; simp)) D out ha
  obtain ⟨views', p', lines', hv', hp1', hperm', hlim'⟩ := C55_detail P w' q s' hs' ds ms hp hg hgf hl (.inl (by rw [hz]; simp)) D out' ha'
  rw [hz] at hlim hlim'
  have hvv := views_iff hv hv'
  obtain ⟨e1, e2, -⟩ := hset views views' hvv
  have hcond : ∀ i, i ∈ P.access views ∨ (∃ l ∈ leavesList q.wheres, i ∈ l.first :: l.rest) →
      ∀ G : List ρ, compared D P w (P.fpk views) q.fieldOf G i = compared D P w' (P.fpk views) q.fieldOf G i := by
    intro i hi G
    refine compared_same D (fun f m hf hm => ?_) G
    obtain ⟨x, hx⟩ := hdim views hv i hi f hf
    rw [hm] at hx
    cases hx
  have hwh : PassesWhere D P w views q = PassesWhere D P w' views q := by
    funext r
    unfold PassesWhere
    rw [meanings_congr _ (compared D P w' (P.fpk views) q.fieldOf [r]) q.wheres (fun l hl i hi => hcond i (.inr ⟨l, hl, hi⟩) [r])]
    refine propext (and_congr_left fun _ => forall_congr' fun i => forall_congr' fun hi => ?_)
    rw [hcond i (.inl hi) [r]]
  rw [where_views hset w' hvv, ← hwh] at hp1'
  have hpp : p' = p := by
    funext r
    rw [Bool.eq_iff_iff, hp1, hp1']
  subst hpp
  rw [← e1] at hperm'
  have h1 : out = lines := hlim
  have h2 : out' = lines' := hlim'
  rw [h1, h2]
  exact hperm.trans hperm'.symm

/-- The comparisons of a group filter's CTE have SQL. -/
theorem cte_sql {P : AnsProject} {w : Warehouse} {q : Question} {s : Stmt} (hs : buildStmt P w q = .ok s) {g : GroupFilter} (hgf : q.groupFilters = [g]) {d m : AnsField}
    (hd : P.get g.groupBy = .ok d) (hm : P.get g.field = .ok m) :
    ∀ i, (i ∈ P.access [d.view, m.view].dedup ∨ i = g.comparison) → ∀ f x, P.get ((cteQuestion q g).fieldOf i) = .ok f → f.sql = .measure x →
      ∃ a, aggregateSql x w (P.fpk [d.view, m.view].dedup) = .ok a := by
  intro i hi f x hf hx
  obtain ⟨views, -, -, -, -, hctes⟩ := buildStmt_ok hs
  rw [hgf, buildInCtes] at hctes
  cases hc : buildInCte P w q g with
  | error e => rw [hc] at hctes; cases hctes
  | ok c =>
    obtain ⟨d', m', sq, hd', hm', hsq, hcb, -⟩ := buildInCte_ok hc
    rw [hd] at hd'
    cases hd'
    rw [hm] at hm'
    cases hm'
    obtain ⟨cl, fs, hcl, -, -, -, -, -, -, -, hwh, -, hsel, hcond, hck⟩ := buildBlock_ok hcb
    have hall := checkConds_ok hck
    have hgr : GroupsRows (cteQuestion q g) [d] [] := .inr fun m hm => by cases hm
    have hin : i ∈ clauseComparisons c.cte.whereText ++ clauseComparisons c.cte.havingText := by
      rw [List.mem_append]
      rcases hi with hi | hi
      · left
        rw [clause_atoms _ _ _ hwh]
        exact List.mem_append.mpr (.inl hi)
      · right
        have hht : clauseText (parseFilterObject (.filters (cteQuestion q g).havings) (accessText [])) = .ok c.cte.havingText :=
          (hsel ((groups_iff hcl (.cons hd .nil) .nil).mpr hgr)).2
        rw [clause_atoms _ _ _ hht]
        refine List.mem_append.mpr (.inr ?_)
        rw [hi]
        simp [cteQuestion, leavesList, leaves]
    obtain ⟨e, he⟩ := hall i hin
    rw [hcond, hf] at he
    simp only [fieldExpr, hx] at he
    cases ha : aggregateSql x w (P.fpk [d.view, m.view].dedup) with
    | error e => rw [ha] at he; cases he
    | ok a => exact ⟨a, rfl⟩

/-- C89 (d): the same with a filter on entities, when the layer corrects double counting for both warehouses or for none. -/
theorem C89_group_filter (P : AnsProject) (w w' : Warehouse) (q : Question) (s s' : Stmt) (hs : buildStmt P w q = .ok s) (hs' : buildStmt P w' q = .ok s') (ds ms : List AnsField)
    (hp : Proper P q ds ms) (hne : ds ≠ []) (hg : GroupsRows q ds ms) (g : GroupFilter) (hgf : q.groupFilters = [g]) (hlim : q.limit = none) (ht : ∀ t, q.order ≠ .text t)
    (hn : ∀ o ∈ askedOrder w q, o.1 ≠ "__DEFAULT__") (hn' : ∀ o ∈ askedOrder w' q, o.1 ≠ "__DEFAULT__") (hl : LabelsDiffer P) (hk : SameKind w w')
    (D : Db ρ) (hset : SetOfViews D P) (out out' : List (List Val)) (ha : s.Answers D out) (ha' : s'.Answers D out') : out.Perm out' := by
  obtain ⟨views, d, m, lines, hv, hd, hm, htab, -, hlm⟩ := C56_table P w q s hs ds ms hp hg hne g hgf hl ht hn (.inl (by rw [hlim]; simp)) D out ha
  obtain ⟨views', d', m', lines', hv', hd', hm', htab', -, hlm'⟩ := C56_table P w' q s' hs' ds ms hp hg hne g hgf hl ht hn' (.inl (by rw [hlim]; simp)) D out' ha'
  rw [hd] at hd'
  cases hd'
  rw [hm] at hm'
  cases hm'
  rw [hlim] at hlm hlm'
  have h1 : out = lines := hlm
  have h2 : out' = lines' := hlm'
  rw [h1, h2]
  have hvv := views_iff hv hv'
  obtain ⟨e1, e2, -⟩ := hset views views' hvv
  have two := two_warehouses hs hs' hp (.inl hk : Comparable P w w' q ms) D hset hv
  have hcond : ∀ i, (i ∈ P.access [d.view, m.view].dedup ∨ i = g.comparison) → ∀ G : List ρ,
      compared D P w (P.fpk [d.view, m.view].dedup) (cteQuestion q g).fieldOf G i = compared D P w' (P.fpk [d.view, m.view].dedup) (cteQuestion q g).fieldOf G i := fun i hi G =>
    compared_same D (fun f x hf hx => ⟨cte_sql hs hgf hd hm i hi f x hf hx, cte_sql hs' hgf hd hm i hi f x hf hx, .inl hk⟩) G
  obtain ⟨sq, hsq⟩ : ∃ sq, d.sql = .dimension sq := by
    obtain ⟨_, -, -, -, -, hctes⟩ := buildStmt_ok hs
    rw [hgf, buildInCtes] at hctes
    cases hc : buildInCte P w q g with
    | error e => rw [hc] at hctes; cases hctes
    | ok c =>
      obtain ⟨d', m', sq, hd', -, hsq, -⟩ := buildInCte_ok hc
      rw [hd] at hd'
      cases hd'
      exact ⟨sq, hsq⟩
  have hdv : ∀ r : ρ, valueOf D.engine w' (P.fpk [d.view, m.view].dedup) d [r] = valueOf D.engine w (P.fpk [d.view, m.view].dedup) d [r] := by
    intro r
    simp only [valueOf, hsq]
  have hacc : (fun x : ρ => ∀ i ∈ P.access [d.view, m.view].dedup, compared D P w' (P.fpk [d.view, m.view].dedup) (cteQuestion q g).fieldOf [x] i = .t) =
      fun x => ∀ i ∈ P.access [d.view, m.view].dedup, compared D P w (P.fpk [d.view, m.view].dedup) (cteQuestion q g).fieldOf [x] i = .t := by
    funext x
    refine propext (forall_congr' fun i => forall_congr' fun hi => ?_)
    rw [hcond i (.inl hi)]
  have hent : EntityPasses D P w' q g d [d.view, m.view].dedup = EntityPasses D P w q g d [d.view, m.view].dedup := by
    funext r
    unfold EntityPasses
    simp only [hdv]
    rw [hacc]
    simp only [hcond g.comparison (.inr rfl)]
  rw [← e1, ← e2, where_views hset w' hvv, having_views hset w' hvv, ← two.wheres, ← two.havings hg, hent] at htab'
  have hds : (fun r => ds.map (fun d => valueOf D.engine w' (P.fpk views) d [r])) = fun r => ds.map (fun d => valueOf D.engine w (P.fpk views) d [r]) := by
    funext r
    exact List.map_congr_left fun d hd => (congrFun (two.value hg d (List.mem_append_left _ hd)) _).symm
  have hms : (fun G => ms.map (fun m => valueOf D.engine w' (P.fpk views) m G)) = fun G => ms.map (fun m => valueOf D.engine w (P.fpk views) m G) := by
    funext G
    exact List.map_congr_left fun m hm => (congrFun (two.value hg m (List.mem_append_right _ hm)) _).symm
  rw [hds, hms] at htab'
  refine (List.perm_ext_iff_of_nodup (table_nodup htab) (table_nodup htab')).mpr fun l => ?_
  rw [table_iff htab, table_iff htab']

end
end ML
