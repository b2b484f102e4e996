import Verif.Answer.Lemmas
import Verif.SymAgg.Props
/-
C55: what a single query answers, from its arguments to the lines. C56: filters with a `group_by`.
-/
set_option autoImplicit false
namespace ML
open Spec

section
variable {ρ : Type}

theorem table_of_groups {rows kept : List ρ} {pass : ρ → Prop} {p : ρ → Bool} (hp : ∀ r, p r = true ↔ pass r) (hk : kept = rows.filter p)
    {dims : ρ → List Val} {n : Nat} (hn : ∀ r, (dims r).length = n) {mets : List ρ → List Val} {groups sel : List (List ρ)}
    (hg : groups.Perm ((kept.map dims).dedup.map (fun k => kept.filter (fun r => dims r = k))))
    {H : List ρ → Bool} {passGroup : List ρ → Prop} (hH : ∀ G, H G = true ↔ passGroup G) (hs : sel = groups.filter H)
    {line : List ρ → List Val} (hline : ∀ r G, line (r :: G) = dims r ++ mets (r :: G)) {lines : List (List Val)}
    (hl : lines.Perm (sel.map line)) : IsTable rows pass dims mets passGroup n lines := by
  have hcls : ∀ k ∈ (kept.map dims).dedup, k.length = n ∧ kept.filter (fun r => dims r = k) ≠ [] ∧
      line (kept.filter (fun r => dims r = k)) = k ++ mets (kept.filter (fun r => dims r = k)) := by
    intro k hkm
    obtain ⟨r, hr, rfl⟩ := List.mem_map.mp (List.mem_dedup.mp hkm)
    have hmem : r ∈ kept.filter (fun x => dims x = dims r) := List.mem_filter.mpr ⟨hr, by simp⟩
    refine ⟨hn r, List.ne_nil_of_mem hmem, ?_⟩
    cases hG : kept.filter (fun x => dims x = dims r) with
    | nil => rw [hG] at hmem; cases hmem
    | cons x G =>
      have hx : x ∈ kept.filter (fun x => dims x = dims r) := by rw [hG]; simp
      have := (List.mem_filter.mp hx).2
      rw [hline, show dims x = dims r by simpa using this]
  have hbeh : ∀ k, Behind pass dims rows k (kept.filter (fun r => dims r = k)) := by
    intro k
    refine ⟨fun r => p r && decide (dims r = k), fun r _ => by simp [hp], ?_⟩
    rw [hk, List.filter_filter]
    exact List.filter_congr fun r _ => by rw [Bool.and_comm]
  have hsel : sel.Perm ((((kept.map dims).dedup.filter (fun k => H (kept.filter (fun r => dims r = k)))).map
      (fun k => kept.filter (fun r => dims r = k)))) := by
    rw [hs]
    refine (hg.filter _).trans ?_
    rw [List.filter_map]
    exact List.Perm.refl _
  have hlines : lines.Perm (((kept.map dims).dedup.filter (fun k => H (kept.filter (fun r => dims r = k)))).map
      (fun k => k ++ mets (kept.filter (fun r => dims r = k)))) := by
    refine hl.trans ((hsel.map line).trans ?_)
    rw [List.map_map]
    refine List.Perm.of_eq (List.map_congr_left fun k hk => ?_)
    exact (hcls k (List.mem_of_mem_filter hk)).2.2
  refine ⟨fun l hl => ?_, fun r hr hpr => ?_, ?_⟩
  · obtain ⟨k, hkm, rfl⟩ := List.mem_map.mp (hlines.mem_iff.mp hl)
    obtain ⟨h1, h2⟩ := List.mem_filter.mp hkm
    exact ⟨k, _, (hcls k h1).1, (hcls k h1).2.1, hbeh k, (hH _).mp h2, rfl⟩
  · refine ⟨_, hbeh (dims r), fun hpg => ?_⟩
    refine hlines.mem_iff.mpr (List.mem_map.mpr ⟨dims r, List.mem_filter.mpr ⟨?_, (hH _).mpr hpg⟩, rfl⟩)
    refine List.mem_dedup.mpr (List.mem_map.mpr ⟨r, ?_, rfl⟩)
    rw [hk]
    exact List.mem_filter.mpr ⟨hr, (hp r).mpr hpr⟩
  · refine ((hlines.map (List.take n)).nodup_iff).mpr ?_
    rw [List.map_map]
    have : ((kept.map dims).dedup.filter (fun k => H (kept.filter (fun r => dims r = k)))).map
        (List.take n ∘ fun k => k ++ mets (kept.filter (fun r => dims r = k))) =
        (kept.map dims).dedup.filter (fun k => H (kept.filter (fun r => dims r = k))) := by
      rw [List.map_congr_left (g := id), List.map_id]
      intro k hk
      have := (hcls k (List.mem_of_mem_filter hk)).1
      simp [← this]
    rw [this]
    exact (List.nodup_dedup _).filter _

/-- The conditions of a block keep the rows and groups the specification says. -/
theorem block_keeps {P : AnsProject} {w : Warehouse} {views : List String} {q : Question} {b : Block} (hb : buildBlock P w views q = .ok b)
    (hw : WellFormedFilters q.wheres) (D : Db ρ) {rows kept : List ρ}
    (h : KeepsItems D b b.whereText (rows.map (fun r => [r])) (kept.map (fun r => [r]))) :
    ∃ p : ρ → Bool, (∀ r, p r = true ↔ PassesWhere D P w views q r) ∧ kept = rows.filter p := by
  obtain ⟨c, fs, -, -, -, -, -, -, -, -, hwh, -, -, hcond, -⟩ := buildBlock_ok hb
  obtain ⟨o, ho, hk⟩ := clause_keeps (ρ := ρ) (P.access views) q.wheres hw
  rw [hwh] at ho
  cases ho
  obtain ⟨p, hp, he⟩ := (hk D b _ _).mp h
  rw [singles_filter] at he
  refine ⟨fun r => p [r], fun r => ?_, singles_inj he⟩
  rw [hp, truth_eq hcond]
  rfl

theorem block_having {P : AnsProject} {w : Warehouse} {views : List String} {q : Question} {b : Block} (hb : buildBlock P w views q = .ok b)
    (hg : b.groupBy ≠ none) (hh : WellFormedFilters q.havings) (D : Db ρ) {groups sel : List (List ρ)}
    (h : KeepsItems D b b.havingText groups sel) :
    ∃ H : List ρ → Bool, (∀ G, H G = true ↔ PassesHaving D P w views q G) ∧ sel = groups.filter H := by
  obtain ⟨c, fs, -, -, hgb, -, -, -, -, -, -, -, hgr, hcond, -⟩ := buildBlock_ok hb
  obtain ⟨-, hht⟩ := hgr (by rw [← hgb]; exact hg)
  obtain ⟨o, ho, hk⟩ := clause_keeps (ρ := ρ) [] q.havings hh
  have hht' : clauseText (parseFilterObject (.filters q.havings) (accessText [])) = .ok b.havingText := hht
  rw [hht'] at ho
  cases ho
  obtain ⟨H, hH, he⟩ := (hk D b _ _).mp h
  refine ⟨H, fun G => ?_, he⟩
  rw [hH, truth_eq hcond]
  simp [PassesHaving]

theorem head_value {E : Engine ρ} {w : Warehouse} {fpk : FunctionalPk} {ds : List AnsField} (hd : ∀ d ∈ ds, ∃ s, d.sql = .dimension s)
    (r : ρ) (G : List ρ) : ds.map (fun d => valueOf E w fpk d (r :: G)) = ds.map (fun d => valueOf E w fpk d [r]) := by
  refine List.map_congr_left fun d hdm => ?_
  obtain ⟨s, hs⟩ := hd d hdm
  unfold valueOf
  rw [hs]
  rfl

/-- The answer of a grouped block with dimensions, over any rows. -/
theorem block_table {P : AnsProject} {w : Warehouse} {views : List String} {q : Question} {b : Block} (hb : buildBlock P w views q = .ok b)
    {ds ms : List AnsField} (hp : Proper P q ds ms) (hg : GroupsRows q ds ms) (hne : ds ≠ []) (D : Db ρ) {rows : List ρ}
    {out : List (List Val)} (ha : b.Answers D rows out) :
    ∃ lines cols, IsTable rows (PassesWhere D P w views q) (fun r => ds.map (fun d => valueOf D.engine w (P.fpk views) d [r]))
        (fun G => ms.map (fun m => valueOf D.engine w (P.fpk views) m G)) (PassesHaving D P w views q) ds.length lines ∧
      b.orderColumns = some cols ∧ lines.Pairwise (fun x y => lineBefore b.nullsOption cols y x = false) ∧
      out = (match b.limit with | none => lines | some n => lines.take n) := by
  obtain ⟨kept, groups, sel, lines, cols, hk, hgr, hh, hl, ho, hs, hout⟩ := ha
  refine ⟨lines, cols, ?_, ho, hs, hout⟩
  obtain ⟨c, fs, hc, hf, hgb, -, -, -, -, hba, -, -, hsel, -, -⟩ := buildBlock_ok hb
  have hgn := (groups_iff hc hp.dims hp.metrics).mpr hg
  have hfs : fs = ds ++ ms := (getAll_names.mp hf).unique (hp.dims.append hp.metrics)
  subst hfs
  have hse := groupSelect_ok (hsel hgn).1
  obtain ⟨p, hpp, hkept⟩ := block_keeps hb hp.wheres D hk
  obtain ⟨H, hH, hsl⟩ := block_having hb (by rw [hgb]; exact hgn) hp.havings D hh
  obtain ⟨ts, hts⟩ := Option.ne_none_iff_exists'.mp hgn
  obtain ⟨-, own, hown, hfor⟩ := (C29_group_by _ _ _ hc).2.2 ts hts
  simp only [Question.toRequest, List.append_nil] at hown hfor
  subst hown
  have htne : ts ≠ [] := by
    rintro rfl
    have := hp.dims
    rw [List.forall₂_nil_right_iff] at hfor
    rw [hfor] at this
    cases this
    exact hne rfl
  have hgr' : ∃ sqls, ts.mapM b.groupExpr = some sqls ∧
      groups.Perm ((kept.map (fun r => sqls.map (D.engine.value r))).dedup.map
        (fun k => kept.filter (fun r => sqls.map (D.engine.value r) = k))) := by
    unfold Block.Groups at hgr
    rw [hgb, hts] at hgr
    cases ts with
    | nil => exact absurd rfl htne
    | cons t ts => exact hgr
  obtain ⟨sqls, hm, hperm⟩ := hgr'
  have hkey : ∀ r, sqls.map (D.engine.value r) = ds.map (fun d => valueOf D.engine w (P.fpk views) d [r]) :=
    fun r => group_sqls hp.dims hp.dimension hse hba hfor hm D.engine r
  simp only [hkey] at hperm
  refine table_of_groups hpp hkept (fun r => by simp) hperm hH hsl ?_ hl
  intro r G
  rw [line_values hse, List.map_append, head_value hp.dimension]

/-- The statement of a query without group filters. -/
theorem buildStmt_ok {P : AnsProject} {w : Warehouse} {q : Question} {s : Stmt} (h : buildStmt P w q = .ok s) :
    ∃ views, QueryViews P q views ∧ buildBlock P w views q = .ok s.block ∧ s.block.views = views ∧ q.groupFilters.length ≤ 1 ∧
      buildInCtes P w q q.groupFilters = .ok s.inCtes := by
  unfold buildStmt at h
  cases hv : lookupViews P q with
  | error e => rw [hv] at h; cases h
  | ok views =>
    rw [hv] at h
    simp only at h
    cases hb : buildBlock P w views q with
    | error e => rw [hb] at h; cases h
    | ok b =>
      rw [hb] at h
      simp only at h
      split at h
      · cases h
      · rename_i hle
        cases hi : buildInCtes P w q q.groupFilters with
        | error e => rw [hi] at h; cases h
        | ok cs =>
          rw [hi] at h
          cases h
          refine ⟨views, ?_, hb, ?_, by omega, rfl⟩
          · unfold lookupViews at hv
            split at hv
            · cases hv
            · rename_i fs hf
              cases hv
              exact ⟨fs, getAll_names.mp hf, List.nodup_dedup _, fun v => by simp⟩
          · obtain ⟨c, fs, -, -, -, -, h2, -⟩ := buildBlock_ok hb
            exact h2

/-- An answer to a statement without group filters is an answer to its block. -/
theorem stmt_answers {P : AnsProject} {w : Warehouse} {q : Question} {s : Stmt} (hs : buildStmt P w q = .ok s) (hgf : q.groupFilters = [])
    (D : Db ρ) {out : List (List Val)} (ha : s.Answers D out) :
    ∃ views, QueryViews P q views ∧ buildBlock P w views q = .ok s.block ∧ s.block.Answers D (D.rows views) out := by
  obtain ⟨views, hv, hb, hbv, -, hi⟩ := buildStmt_ok hs
  rw [hgf, buildInCtes, Except.ok.injEq] at hi
  obtain ⟨rows, hr, ha⟩ := ha
  rw [← hi, CteRows, hbv] at hr
  rw [hr] at ha
  exact ⟨views, hv, hb, ha⟩

/-- The first line(s): `TOP` is left out for a limit of zero, on SQL Server and Synapse only. -/
theorem limit_lines (w : Warehouse) (limit : Option Nat) (lines : List (List Val)) (hz : limit ≠ some 0 ∨ w ≠ .sqlServer ∧ w ≠ .azureSynapse) :
    Limited limit lines (match limitClause w limit with | none => lines | some n => lines.take n) := by
  have : limitClause w limit = limit := by
    unfold limitClause
    cases w <;> first
      | rfl
      | (rcases hz with hz | hz
         · simp [hz]
         · simp at hz)
  rw [this]
  cases limit with
  | none => rfl
  | some n => exact ⟨List.take_prefix _ _, List.length_take⟩

theorem in_order {P : AnsProject} {w : Warehouse} {views : List String} {q : Question} {b : Block} (hb : buildBlock P w views q = .ok b)
    {ds ms : List AnsField} (hp : Proper P q ds ms) (hg : GroupsRows q ds ms) (hl : LabelsDiffer P) (ht : ∀ t, q.order ≠ .text t)
    (hn : ∀ o ∈ askedOrder w q, o.1 ≠ "__DEFAULT__") {lines : List (List Val)} {cols : List (Nat × Bool)} (ho : b.orderColumns = some cols)
    (hs : lines.Pairwise (fun x y => lineBefore b.nullsOption cols y x = false)) : InOrder P w q lines := by
  obtain ⟨c, fs, hc, hf, hgb, hob, -, hno, -, -, -, -, hsel, -, -⟩ := buildBlock_ok hb
  have hgn := (groups_iff hc hp.dims hp.metrics).mpr hg
  have hfs : fs = ds ++ ms := (getAll_names.mp hf).unique (hp.dims.append hp.metrics)
  subst hfs
  have hse := groupSelect_ok (hsel hgn).1
  have hit := order_items hc hp hgn ht hn
  rw [← hob] at hit
  refine ⟨cols, order_columns hp hl hse hit ho, hs.imp fun {x y} h hpre => ?_⟩
  have hnl : b.nullsOption = writesNullsLast w := by rw [hno]; cases w <;> rfl
  rw [hnl, lineBefore_of_precedes hpre] at h
  cases h

/-- C55 (a): a grouped query with dimensions is answered, on every warehouse, by the table asked for: one line for each combination
of dimension values that occurs among the rows passing the access filters and the filters, with the metrics computed over exactly the
rows with those values, for the groups that pass HAVING; in the order asked for, and cut to the limit. -/
theorem C55_table (P : AnsProject) (w : Warehouse) (q : Question) (s : Stmt) (hs : buildStmt P w q = .ok s) (ds ms : List AnsField)
    (hp : Proper P q ds ms) (hg : GroupsRows q ds ms) (hne : ds ≠ []) (hgf : q.groupFilters = []) (hl : LabelsDiffer P)
    (ht : ∀ t, q.order ≠ .text t) (hn : ∀ o ∈ askedOrder w q, o.1 ≠ "__DEFAULT__")
    (hz : q.limit ≠ some 0 ∨ w ≠ .sqlServer ∧ w ≠ .azureSynapse) (D : Db ρ) (out : List (List Val)) (ha : s.Answers D out) :
    ∃ views lines, QueryViews P q views ∧
      IsTable (D.rows views) (PassesWhere D P w views q) (fun r => ds.map (fun d => valueOf D.engine w (P.fpk views) d [r]))
        (fun G => ms.map (fun m => valueOf D.engine w (P.fpk views) m G)) (PassesHaving D P w views q) ds.length lines ∧
      InOrder P w q lines ∧ Limited q.limit lines out := by
  obtain ⟨views, hv, hb, ha⟩ := stmt_answers hs hgf D ha
  obtain ⟨lines, cols, htab, ho, hsort, hout⟩ := block_table hb hp hg hne D ha
  obtain ⟨c, fs, -, -, -, -, -, -, hlim, -⟩ := buildBlock_ok hb
  refine ⟨views, lines, hv, htab, in_order hb hp hg hl ht hn ho hsort, ?_⟩
  rw [hout, hlim]
  exact limit_lines w q.limit lines hz

/-- The answer of a block without dimensions, over any rows. -/
theorem block_total {P : AnsProject} {w : Warehouse} {views : List String} {q : Question} {b : Block} (hb : buildBlock P w views q = .ok b)
    {ms : List AnsField} (hp : Proper P q [] ms) (hz : q.limit ≠ some 0) (D : Db ρ) {rows : List ρ} {out : List (List Val)}
    (ha : b.Answers D rows out) :
    ∃ p : ρ → Bool, (∀ r, p r = true ↔ PassesWhere D P w views q r) ∧
      (PassesHaving D P w views q (rows.filter p) → out = [ms.map (fun m => valueOf D.engine w (P.fpk views) m (rows.filter p))]) ∧
      (¬ PassesHaving D P w views q (rows.filter p) → out = []) := by
  obtain ⟨kept, groups, sel, lines, cols, hk, hgr, hh, hl, ho, hsort, hout⟩ := ha
  obtain ⟨c, fs, hc, hf, hgb, -, -, -, hlim, -, -, -, hsel, -, -⟩ := buildBlock_ok hb
  have hgn := (groups_iff hc hp.dims hp.metrics).mpr (.inr (by simp))
  have hfs : fs = [] ++ ms := (getAll_names.mp hf).unique (hp.dims.append hp.metrics)
  rw [List.nil_append] at hfs
  subst hfs
  have hse := groupSelect_ok (hsel hgn).1
  obtain ⟨p, hpp, hkept⟩ := block_keeps hb hp.wheres D hk
  obtain ⟨H, hH, hsl⟩ := block_having hb (by rw [hgb]; exact hgn) hp.havings D hh
  obtain ⟨ts, hts⟩ := Option.ne_none_iff_exists'.mp hgn
  obtain ⟨-, own, hown, hfor⟩ := (C29_group_by _ _ _ hc).2.2 ts hts
  simp only [Question.toRequest, List.append_nil] at hown hfor
  subst hown
  have hd := hp.dims
  unfold Names at hd
  rw [List.forall₂_nil_right_iff] at hd
  rw [hd, List.forall₂_nil_left_iff] at hfor
  subst hfor
  have hgroups : groups = [kept] := by
    unfold Block.Groups at hgr
    rw [hgb, hts] at hgr
    exact hgr
  refine ⟨p, hpp, ?_, ?_⟩
  · intro hpass
    have hHk : H kept = true := (hH kept).mpr (by rw [hkept]; exact hpass)
    rw [hgroups] at hsl
    simp only [List.filter_cons, hHk, if_true, List.filter_nil] at hsl
    rw [hsl] at hl
    simp only [List.map_cons, List.map_nil] at hl
    have hlines := List.perm_singleton.mp hl
    rw [hout, hlines, line_values hse, hkept, hlim]
    have : ∀ n, q.limit = some n → 1 ≤ n := by
      intro n hn
      rcases Nat.eq_zero_or_pos n with rfl | h
      · exact absurd hn hz
      · exact h
    cases hq : q.limit with
    | none => cases w <;> rfl
    | some n =>
      have h1 := this n hq
      obtain ⟨m, rfl⟩ : ∃ m, n = m + 1 := ⟨n - 1, by omega⟩
      cases w <;> simp [limitClause]
  · intro hpass
    have hHk : H kept = false := by
      cases h : H kept with
      | false => rfl
      | true => exact absurd ((hH kept).mp h) (by rw [hkept]; exact hpass)
    rw [hgroups] at hsl
    simp only [List.filter_cons, hHk, List.filter_nil] at hsl
    rw [hsl] at hl
    have hlines := List.Perm.eq_nil (by simpa using hl)
    rw [hout, hlines]
    cases b.limit <;> simp

/-- C55 (b): without dimensions there is one line: the metrics over all rows that pass, even when there is none; and no line when HAVING
rejects it or the limit is zero. -/
theorem C55_total (P : AnsProject) (w : Warehouse) (q : Question) (s : Stmt) (hs : buildStmt P w q = .ok s) (ms : List AnsField)
    (hp : Proper P q [] ms) (hgf : q.groupFilters = []) (hz : q.limit ≠ some 0) (D : Db ρ) (out : List (List Val)) (ha : s.Answers D out) :
    ∃ views p, QueryViews P q views ∧ (∀ r, p r = true ↔ PassesWhere D P w views q r) ∧
      (PassesHaving D P w views q ((D.rows views).filter p) →
        out = [ms.map (fun m => valueOf D.engine w (P.fpk views) m ((D.rows views).filter p))]) ∧
      (¬ PassesHaving D P w views q ((D.rows views).filter p) → out = []) := by
  obtain ⟨views, hv, hb, ha⟩ := stmt_answers hs hgf D ha
  obtain ⟨p, h1, h2, h3⟩ := block_total hb hp hz D ha
  exact ⟨views, p, hv, h1, h2, h3⟩

theorem dedupSelect_nodup (l : List (SqlExpr × String)) (seen : List String) (h : (l.map Prod.snd).Nodup)
    (hs : ∀ c ∈ l, c.2 ∉ seen) : dedupSelect seen l = l := by
  induction l generalizing seen with
  | nil => rfl
  | cons c l ih =>
    rw [dedupSelect, if_neg (hs c (by simp))]
    rw [List.map_cons, List.nodup_cons] at h
    rw [ih _ h.2]
    intro d hd hm
    rcases List.mem_cons.mp hm with e | hm
    · exact h.1 (List.mem_map.mpr ⟨d, hd, e⟩)
    · exact hs d (by simp [hd]) hm

/-- C55 (c): a query that does not group (C29) answers one line for each row that passes, with the value of each requested field on
that row, cut to the limit, when the column names differ. -/
theorem C55_detail (P : AnsProject) (w : Warehouse) (q : Question) (s : Stmt) (hs : buildStmt P w q = .ok s) (ds ms : List AnsField)
    (hp : Proper P q ds ms) (hg : ¬ GroupsRows q ds ms) (hgf : q.groupFilters = []) (hl : ((ds ++ ms).map AnsField.label).Nodup)
    (hz : q.limit ≠ some 0 ∨ w ≠ .sqlServer ∧ w ≠ .azureSynapse) (D : Db ρ) (out : List (List Val)) (ha : s.Answers D out) :
    ∃ views p lines, QueryViews P q views ∧ (∀ r, p r = true ↔ PassesWhere D P w views q r) ∧
      lines.Perm (((D.rows views).filter p).map (fun r => (ds ++ ms).map (fun f => rawValueOf D.engine f r))) ∧
      Limited q.limit lines out := by
  obtain ⟨views, hv, hb, ha⟩ := stmt_answers hs hgf D ha
  obtain ⟨kept, groups, sel, lines, cols, hk, hgr, hh, hlp, ho, hsort, hout⟩ := ha
  obtain ⟨c, fs, hc, hf, hgb, -, -, -, hlim, -, -, hraw, -, -, -⟩ := buildBlock_ok hb
  have hgn : c.groupBy = none := by
    by_contra h
    exact hg ((groups_iff hc hp.dims hp.metrics).mp h)
  have hfs : fs = ds ++ ms := (getAll_names.mp hf).unique (hp.dims.append hp.metrics)
  subst hfs
  obtain ⟨hsel, hhv⟩ := hraw hgn
  obtain ⟨p, hpp, hkept⟩ := block_keeps hb hp.wheres D hk
  have hgroups : groups = kept.map (fun r => [r]) := by
    unfold Block.Groups at hgr
    rw [hgb, hgn] at hgr
    exact hgr
  have hsl : sel = groups := by
    rw [hhv] at hh
    exact hh
  refine ⟨views, p, lines, hv, hpp, ?_, ?_⟩
  · refine hlp.trans ?_
    rw [hsl, hgroups, List.map_map, hkept, hsel]
    refine List.Perm.of_eq (List.map_congr_left fun r _ => ?_)
    unfold rawSelect
    rw [dedupSelect_nodup _ _ (by rw [List.map_map]; exact hl) (by simp)]
    simp only [Function.comp_apply, List.map_map]
    refine List.map_congr_left fun f _ => ?_
    simp only [Function.comp_apply]
    unfold rawExpr rawValueOf
    cases f.sql <;> rfl
  · rw [hout, hlim]
    exact limit_lines w q.limit lines hz

/-! ### Filters with a `group_by` -/

theorem buildInCte_ok {P : AnsProject} {w : Warehouse} {q : Question} {g : GroupFilter} {c : InCte} (h : buildInCte P w q g = .ok c) :
    ∃ d m s, P.get g.groupBy = .ok d ∧ P.get g.field = .ok m ∧ d.sql = .dimension s ∧
      buildBlock P w [d.view, m.view].dedup (cteQuestion q g) = .ok c.cte ∧ c.view = d.view ∧ c.sql = s ∧ c.column = d.label := by
  unfold buildInCte at h
  cases hd : P.get g.groupBy with
  | error e => rw [hd] at h; cases h
  | ok d =>
    cases hm : P.get g.field with
    | error e => rw [hd, hm] at h; cases h
    | ok m =>
      rw [hd, hm] at h
      simp only at h
      cases hb : buildBlock P w [d.view, m.view].dedup (cteQuestion q g) with
      | error e => rw [hb] at h; cases h
      | ok b =>
        rw [hb] at h
        simp only at h
        split at h
        · rename_i s hs
          cases h
          exact ⟨d, m, s, rfl, rfl, hs, hb, rfl, rfl, rfl⟩
        · cases h

/-- The CTE of a group filter lists exactly the entities that pass. -/
theorem cte_values {P : AnsProject} {w : Warehouse} {q : Question} {g : GroupFilter} {c : InCte} {d m : AnsField} {s : String}
    (hd : P.get g.groupBy = .ok d) (hs : d.sql = .dimension s) (hb : buildBlock P w [d.view, m.view].dedup (cteQuestion q g) = .ok c.cte)
    (hsql : c.sql = s) (hcol : c.column = d.label) (D : Db ρ) {vs : List Val} (hv : c.Values D vs) (r : ρ) :
    inValues D.engine c.sql vs r = true ↔ EntityPasses D P w q g d [d.view, m.view].dedup r := by
  obtain ⟨lines, i, x, ha, hcx, rfl⟩ := hv
  have hp : Proper P (cteQuestion q g) [d] [] :=
    ⟨.cons hd .nil, .nil, by simp [hs], by simp, trivial, ⟨trivial, trivial⟩⟩
  obtain ⟨c', fs, hc', hf, hgb, -, hbv, -, hlim, -, -, -, hsel, -, -⟩ := buildBlock_ok hb
  rw [hbv] at ha
  obtain ⟨lines', cols, ht, -, -, hout⟩ := block_table hb hp (.inr (by simp)) (by simp) D ha
  have hl : lines = lines' := by
    rw [hout, hlim]
    cases w <;> rfl
  subst hl
  have hgn := (groups_iff hc' hp.dims hp.metrics).mpr (.inr (by simp))
  have hfs : fs = [d] := (getAll_names.mp hf).unique (hp.dims.append hp.metrics)
  subst hfs
  have hse := groupSelect_ok (hsel hgn).1
  have hi : i = 0 := by
    obtain ⟨h1, -⟩ := columnOf_some hcx
    have := hse.length_eq
    obtain ⟨h2, -⟩ := List.getElem?_eq_some_iff.mp h1
    simp at this
    omega
  subst hi
  have hval : valueOf D.engine w (P.fpk [d.view, m.view].dedup) d [r] = D.engine.value r c.sql := by
    unfold valueOf
    rw [hs, hsql]
    rfl
  have hhav : ∀ G, PassesHaving D P w [d.view, m.view].dedup (cteQuestion q g) G ↔
      compared D P w (P.fpk [d.view, m.view].dedup) (cteQuestion q g).fieldOf G g.comparison = .t := by
    intro G
    have : ∀ val : Nat → TV, meanings val (cteQuestion q g).havings = [TV.and (val g.comparison) .t] := fun val => by
      simp [cteQuestion, meanings, meaning, TV.conj]
    unfold PassesHaving
    rw [this, TV.and_t]
    simp
  have hpw : ∀ x, PassesWhere D P w [d.view, m.view].dedup (cteQuestion q g) x ↔
      ∀ i ∈ P.access [d.view, m.view].dedup, compared D P w (P.fpk [d.view, m.view].dedup) (cteQuestion q g).fieldOf [x] i = .t := by
    intro x
    unfold PassesWhere
    have : ∀ val : Nat → TV, meanings val (cteQuestion q g).wheres = [] := fun val => by simp [cteQuestion, meanings]
    rw [this]
    simp
  have hbeh : ∀ k G, Behind (PassesWhere D P w [d.view, m.view].dedup (cteQuestion q g))
      (fun r => [d].map (fun d => valueOf D.engine w (P.fpk [d.view, m.view].dedup) d [r])) (D.rows [d.view, m.view].dedup) k G →
      Behind (fun x => ∀ i ∈ P.access [d.view, m.view].dedup, compared D P w (P.fpk [d.view, m.view].dedup) (cteQuestion q g).fieldOf [x] i = .t)
        (fun x => [valueOf D.engine w (P.fpk [d.view, m.view].dedup) d [x]]) (D.rows [d.view, m.view].dedup) k G := by
    rintro k G ⟨p, hp, rfl⟩
    refine ⟨p, fun r hr => ?_, rfl⟩
    rw [hp r hr, hpw]
    rfl
  unfold inValues EntityPasses
  rw [Bool.and_eq_true, decide_eq_true_iff, hval]
  constructor
  · rintro ⟨h1, h2⟩
    obtain ⟨v, hvv⟩ := Option.isSome_iff_exists.mp h1
    obtain ⟨l, hl, he⟩ := List.mem_map.mp h2
    obtain ⟨k, G, hk, hG, hB, hH, rfl⟩ := ht.sound l hl
    rw [hvv] at he
    match k, hk with
    | [a], _ =>
      have ha : a = some v := by simpa using he
      subst ha
      exact ⟨v, G, hvv, hG, hbeh _ _ hB, (hhav G).mp hH⟩
  · rintro ⟨v, G, h1, hG, ⟨p, hp', rfl⟩, h2⟩
    refine ⟨by rw [h1]; rfl, ?_⟩
    obtain ⟨y, ys, hy⟩ := List.exists_cons_of_ne_nil hG
    have hym : y ∈ (D.rows [d.view, m.view].dedup).filter p := by rw [hy]; simp
    obtain ⟨hyr, hyp⟩ := List.mem_filter.mp hym
    obtain ⟨hya, hyv⟩ := (hp' y hyr).mp hyp
    obtain ⟨G', ⟨p', hp2, rfl⟩, hmem⟩ := ht.complete y hyr ((hpw y).mpr hya)
    have hGG : (D.rows [d.view, m.view].dedup).filter p' = (D.rows [d.view, m.view].dedup).filter p := by
      refine List.filter_congr fun z hz => ?_
      rw [Bool.eq_iff_iff, hp' z hz, hp2 z hz, hpw]
      simp only [List.map_cons, List.map_nil]
      simp only at hyv
      rw [hyv]
    have := hmem (by rw [hGG]; exact (hhav _).mpr h2)
    simp only [List.map_cons, List.map_nil, List.append_nil] at this
    simp only at hyv
    rw [hyv] at this
    exact List.mem_map.mpr ⟨[some v], this, by rw [h1]; rfl⟩

/-- A group filter's answer: the entity's view is in the FROM, and the rows are restricted to those whose entity passes. -/
theorem group_rows {P : AnsProject} {w : Warehouse} {q : Question} {s : Stmt} (hs : buildStmt P w q = .ok s) {g : GroupFilter}
    (hgf : q.groupFilters = [g]) (D : Db ρ) {out : List (List Val)} (ha : s.Answers D out) :
    ∃ views d m p, QueryViews P q views ∧ P.get g.groupBy = .ok d ∧ P.get g.field = .ok m ∧ d.view ∈ D.tables views ∧
      (∀ r, p r = true ↔ EntityPasses D P w q g d [d.view, m.view].dedup r) ∧ buildBlock P w views q = .ok s.block ∧
      s.block.Answers D ((D.rows views).filter p) out := by
  obtain ⟨views, hv, hb, hbv, -, hi⟩ := buildStmt_ok hs
  rw [hgf, buildInCtes] at hi
  cases hc : buildInCte P w q g with
  | error e => rw [hc] at hi; cases hi
  | ok c =>
    rw [hc] at hi
    simp only [buildInCtes, Except.ok.injEq] at hi
    obtain ⟨rows, hr, ha⟩ := ha
    rw [← hi, hbv] at hr
    obtain ⟨h1, vs, h2, h3⟩ := hr
    rw [CteRows] at h3
    obtain ⟨d, m, sq, hd, hm, hsq, hcb, hcv, hcs, hcc⟩ := buildInCte_ok hc
    refine ⟨views, d, m, inValues D.engine c.sql vs, hv, hd, hm, by rw [← hcv]; exact h1,
      fun r => cte_values hd hsq hcb hcs hcc D h2 r, hb, ?_⟩
    rw [← h3]
    exact ha

theorem behind_filter {pass : ρ → Prop} {dims : ρ → List Val} {rows : List ρ} {k : List Val} {G : List ρ} {f : ρ → Bool} {ok : ρ → Prop}
    (hf : ∀ r, f r = true ↔ ok r) : Behind pass dims (rows.filter f) k G ↔ Behind (fun r => ok r ∧ pass r) dims rows k G := by
  constructor
  · rintro ⟨p, hp, rfl⟩
    refine ⟨fun r => f r && p r, fun r hr => ?_, ?_⟩
    · rw [Bool.and_eq_true, hf, and_assoc]
      constructor
      · rintro ⟨h1, h2⟩
        exact ⟨h1, (hp r (List.mem_filter.mpr ⟨hr, (hf r).mpr h1⟩)).mp h2⟩
      · rintro ⟨h1, h2⟩
        exact ⟨h1, (hp r (List.mem_filter.mpr ⟨hr, (hf r).mpr h1⟩)).mpr h2⟩
    · rw [List.filter_filter]
      exact List.filter_congr fun r _ => by rw [Bool.and_comm]
  · rintro ⟨p, hp, rfl⟩
    refine ⟨p, fun r hr => ?_, ?_⟩
    · obtain ⟨h1, h2⟩ := List.mem_filter.mp hr
      rw [hp r h1, and_assoc]
      exact ⟨fun h => h.2, fun h => ⟨(hf r).mp h2, h⟩⟩
    · rw [List.filter_filter]
      refine List.filter_congr fun r hr => ?_
      cases hpr : p r with
      | false => rfl
      | true =>
        have := ((hp r hr).mp hpr).1.1
        rw [(hf r).mpr this]
        rfl

/-- C56 (a): a filter with a `group_by` restricts the rows to those whose entity passes, and the query answers the table asked for over
those rows. -/
theorem C56_table (P : AnsProject) (w : Warehouse) (q : Question) (s : Stmt) (hs : buildStmt P w q = .ok s) (ds ms : List AnsField)
    (hp : Proper P q ds ms) (hg : GroupsRows q ds ms) (hne : ds ≠ []) (g : GroupFilter) (hgf : q.groupFilters = [g]) (hl : LabelsDiffer P)
    (ht : ∀ t, q.order ≠ .text t) (hn : ∀ o ∈ askedOrder w q, o.1 ≠ "__DEFAULT__")
    (hz : q.limit ≠ some 0 ∨ w ≠ .sqlServer ∧ w ≠ .azureSynapse) (D : Db ρ) (out : List (List Val)) (ha : s.Answers D out) :
    ∃ views d m lines, QueryViews P q views ∧ P.get g.groupBy = .ok d ∧ P.get g.field = .ok m ∧
      IsTable (D.rows views) (fun r => EntityPasses D P w q g d [d.view, m.view].dedup r ∧ PassesWhere D P w views q r)
        (fun r => ds.map (fun d => valueOf D.engine w (P.fpk views) d [r]))
        (fun G => ms.map (fun m => valueOf D.engine w (P.fpk views) m G)) (PassesHaving D P w views q) ds.length lines ∧
      InOrder P w q lines ∧ Limited q.limit lines out := by
  obtain ⟨views, d, m, p, hv, hd, hm, -, hpe, hb, ha⟩ := group_rows hs hgf D ha
  obtain ⟨lines, cols, htab, ho, hsort, hout⟩ := block_table hb hp hg hne D ha
  obtain ⟨c, fs, -, -, -, -, -, -, hlim, -⟩ := buildBlock_ok hb
  refine ⟨views, d, m, lines, hv, hd, hm, ⟨?_, ?_, htab.once⟩, in_order hb hp hg hl ht hn ho hsort, ?_⟩
  · intro l hl
    obtain ⟨k, G, h1, h2, h3, h4⟩ := htab.sound l hl
    exact ⟨k, G, h1, h2, (behind_filter hpe).mp h3, h4⟩
  · rintro r hr ⟨h1, h2⟩
    obtain ⟨G, h3, h4⟩ := htab.complete r (List.mem_filter.mpr ⟨hr, (hpe r).mpr h1⟩) h2
    exact ⟨G, (behind_filter hpe).mp h3, h4⟩
  · rw [hout, hlim]
    exact limit_lines w q.limit lines hz

/-- C56 (b): any answer, grouped or not, is the answer of the same query over the rows whose entity passes. -/
theorem C56_rows (P : AnsProject) (w : Warehouse) (q : Question) (s : Stmt) (hs : buildStmt P w q = .ok s) (g : GroupFilter)
    (hgf : q.groupFilters = [g]) (D : Db ρ) (out : List (List Val)) (ha : s.Answers D out) :
    ∃ views d m p s', QueryViews P q views ∧ P.get g.groupBy = .ok d ∧ P.get g.field = .ok m ∧
      (∀ r, p r = true ↔ EntityPasses D P w q g d [d.view, m.view].dedup r) ∧ buildStmt P w { q with groupFilters := [] } = .ok s' ∧
      s'.Answers { D with rows := fun vs => if vs = views then (D.rows views).filter p else D.rows vs } out := by
  obtain ⟨views, d, m, p, hv, hd, hm, -, hpe, hb, ha⟩ := group_rows hs hgf D ha
  obtain ⟨views', hv', hb', hbv, -, -⟩ := buildStmt_ok hs
  have hlv : lookupViews P q = .ok s.block.views := by
    unfold buildStmt at hs
    cases h : lookupViews P q with
    | error e => rw [h] at hs; cases hs
    | ok vs =>
      rw [h] at hs
      simp only at hs
      cases h2 : buildBlock P w vs q with
      | error e => rw [h2] at hs; cases hs
      | ok b =>
        rw [h2] at hs
        simp only at hs
        split at hs
        · cases hs
        · split at hs
          · cases hs
          · cases hs
            obtain ⟨_, _, _, _, _, _, h3, _⟩ := buildBlock_ok h2
            simp only [h3]
  have hvw : s.block.views = views := by
    obtain ⟨_, _, _, _, _, _, h3, _⟩ := buildBlock_ok hb
    exact h3
  refine ⟨views, d, m, p, ⟨s.block, []⟩, hv, hd, hm, hpe, ?_, ?_⟩
  · have h1 : lookupViews P { q with groupFilters := [] } = .ok views := by rw [← hvw, ← hlv]; rfl
    have h2 : buildBlock P w views { q with groupFilters := [] } = .ok s.block := by rw [← hb]; rfl
    unfold buildStmt
    rw [h1]
    simp only [h2, List.length_nil, buildInCtes]
    rfl
  · refine ⟨(D.rows views).filter p, ?_, ha⟩
    simp [CteRows, hvw]

/-- C56 (c): a second filter with a `group_by` is refused, whatever it is. -/
theorem C56_two_rejected (P : AnsProject) (w : Warehouse) (q : Question) (h : 2 ≤ q.groupFilters.length) (s : Stmt) : buildStmt P w q ≠ .ok s := by
  intro hs
  obtain ⟨_, _, _, _, h1, _⟩ := buildStmt_ok hs
  omega

/-- C56 (d): when the view of the entity is not joined in the query, the statement refers to a missing table and is never answered. -/
theorem C56_missing_view (P : AnsProject) (w : Warehouse) (q : Question) (s : Stmt) (hs : buildStmt P w q = .ok s) (g : GroupFilter)
    (hgf : q.groupFilters = [g]) (d : AnsField) (hd : P.get g.groupBy = .ok d) (D : Db ρ)
    (hm : ∀ views, QueryViews P q views → d.view ∉ D.tables views) (out : List (List Val)) : ¬ s.Answers D out := by
  intro ha
  obtain ⟨views, d', m, p, hv, hd', -, ht, -⟩ := group_rows hs hgf D ha
  rw [hd] at hd'
  cases hd'
  exact hm views hv ht

end
end ML
