import Verif.MergeStmt.SubSpec
import Verif.MergeStmt.Props
import Verif.Answer.PropsEx
/-
C60: the lines of a merged query in terms of the rows of the warehouse.
-/
set_option autoImplicit false
namespace ML
open Spec

section
variable {ρ : Type}

theorem named_values {columns : List String} {line : List Val} (hn : columns.Nodup) (hl : line.length = columns.length) :
    columns.map (namedRow columns line) = line := by
  refine List.ext_getElem (by simp [hl]) fun i h1 h2 => ?_
  simp only [List.length_map] at h1
  simp [namedRow, hn.idxOf_getElem i h1, List.getElem?_eq_getElem h2]

/-- The table of a sub-query: its answer, as a table. -/
theorem sub_table {P : AnsProject} {w : Warehouse} {D : Db ρ} {d : MergedDef} {db : String → List (MRow ℚ)} {h : String}
    {views : List String} {q : Question} {ds ms : List AnsField} (ha : AnswersSub P w D d db h views q ds ms) (hne : ds ≠ []) :
    QueryViews P q views ∧ ∃ lines, db h = lines.map (namedRow ((ds ++ ms).map AnsField.label)) ∧
      IsTable (D.rows views) (PassesWhere D P w views q) (fun r => ds.map (fun f => valueOf D.engine w (P.fpk views) f [r]))
        (fun G => ms.map (fun m => valueOf D.engine w (P.fpk views) m G)) (fun _ => True) ds.length lines := by
  obtain ⟨s, out, hs, hv, han, hdb⟩ := ha.answer
  obtain ⟨names, fields, force, hq⟩ := ha.asked
  have hgf : q.groupFilters = [] := by rw [hq]; rfl
  have hhv : q.havings = [] := by rw [hq]; rfl
  have hlm : q.limit = none := by rw [hq]; rfl
  obtain ⟨views', hqv, hb, hbv, -, -⟩ := buildStmt_ok hs
  obtain ⟨views'', -, hb', hba⟩ := stmt_answers hs hgf D han
  have e1 : views' = views := by rw [← hbv, hv]
  have e2 : views'' = views := by
    obtain ⟨c, fs, -, -, -, -, h2, -⟩ := buildBlock_ok hb'
    rw [← h2, hv]
  subst e1 e2
  obtain ⟨lines, cols, htab, -, -, hout⟩ := block_table hb' ha.proper ha.grouped hne D hba
  obtain ⟨c, fs, -, -, -, -, -, -, hlim, -⟩ := buildBlock_ok hb'
  rw [hlim, hlm] at hout
  have hout : out = lines := by
    rw [hout]
    cases w <;> rfl
  refine ⟨hqv, lines, by rw [hdb, hout], ?_⟩
  have hh : ∀ G, PassesHaving D P w views'' q G := by
    intro G v hvm
    rw [hhv] at hvm
    simp [meanings] at hvm
  exact ⟨fun l hl => by
      obtain ⟨k, G, a, b, c, -, e⟩ := htab.sound l hl
      exact ⟨k, G, a, b, c, trivial, e⟩,
    fun r hr hpr => by
      obtain ⟨G, a, b⟩ := htab.complete r hr hpr
      exact ⟨G, a, fun _ => b (hh G)⟩, htab.once⟩

/-- The values of a line of a sub-query, by column. -/
theorem sub_key {P : AnsProject} {w : Warehouse} {D : Db ρ} {d : MergedDef} {db : String → List (MRow ℚ)} {h : String}
    {views : List String} {q : Question} {ds ms : List AnsField} (ha : AnswersSub P w D d db h views q ds ms) {k vs : List Val}
    (hk : k.length = ds.length) (hv : vs.length = ms.length) :
    keyOf d.src h (namedRow ((ds ++ ms).map AnsField.label) (k ++ vs)) = k ∧
      (ms.map AnsField.label).map (namedRow ((ds ++ ms).map AnsField.label) (k ++ vs)) = vs := by
  have := named_values ha.labels (line := k ++ vs) (by simp [hk, hv])
  rw [show ((ds ++ ms).map AnsField.label).map (namedRow ((ds ++ ms).map AnsField.label) (k ++ vs)) =
    (ds.map AnsField.label).map (namedRow ((ds ++ ms).map AnsField.label) (k ++ vs)) ++
    (ms.map AnsField.label).map (namedRow ((ds ++ ms).map AnsField.label) (k ++ vs)) by rw [← List.map_append, ← List.map_append]] at this
  obtain ⟨e1, e2⟩ := List.append_inj this (by simp [hk])
  refine ⟨?_, e2⟩
  rw [← ha.dimensions, List.map_map] at e1
  exact e1

theorem behind_of_nonempty {pass : ρ → Prop} {dims : ρ → List Val} {rows : List ρ} {k : List Val} {G : List ρ}
    (hb : Behind pass dims rows k G) (hne : G ≠ []) : ∃ r ∈ rows, pass r ∧ dims r = k := by
  obtain ⟨p, hp, rfl⟩ := hb
  obtain ⟨r, hr⟩ := List.exists_mem_of_ne_nil _ hne
  rw [List.mem_filter] at hr
  exact ⟨r, hr.1, (hp r hr.1).mp hr.2⟩

theorem behind_unique {pass : ρ → Prop} {dims : ρ → List Val} {rows : List ρ} {k : List Val} {G G' : List ρ}
    (hb : Behind pass dims rows k G) (hb' : Behind pass dims rows k G') : G = G' := by
  obtain ⟨p, hp, rfl⟩ := hb
  obtain ⟨p', hp', rfl⟩ := hb'
  refine List.filter_congr fun r hr => ?_
  rw [Bool.eq_iff_iff, hp r hr, hp' r hr]

/-- C60 (h): what a sub-query contributes. The table joined for it has each combination of dimension values once, exactly those that occur
on the rows passing its filters and the access filters; and a metric's value for a combination is its aggregate over exactly those rows,
NULL if there are none. -/
theorem C60_sub (P : AnsProject) (w : Warehouse) (D : Db ρ) (d : MergedDef) (db : String → List (MRow ℚ)) (h : String)
    (views : List String) (q : Question) (ds ms : List AnsField) (ha : AnswersSub P w D d db h views q ds ms) (hne : ds ≠ [])
    (hm : MetricsApart d) :
    QueryViews P q views ∧ ((db h).map (keyOf d.src h)).Nodup ∧
    (∀ k, PresentIn d.src db k h ↔ Occurs P w D views q ds k) ∧
    (NoNulls P w D views q ds → ∀ t ∈ db h, ∀ v ∈ keyOf d.src h t, v ≠ none) ∧
    ∀ m ∈ ms, ∀ k, MetricFor P w D views q ds m k (metricAt d db k m.label) := by
  obtain ⟨hqv, lines, hdb, htab⟩ := sub_table ha hne
  have hline : ∀ l ∈ lines, ∃ k G, k.length = ds.length ∧ G ≠ [] ∧
      Behind (PassesWhere D P w views q) (fun r => ds.map (fun f => valueOf D.engine w (P.fpk views) f [r])) (D.rows views) k G ∧
      l = k ++ ms.map (fun m => valueOf D.engine w (P.fpk views) m G) ∧
      keyOf d.src h (namedRow ((ds ++ ms).map AnsField.label) l) = k ∧
      (ms.map AnsField.label).map (namedRow ((ds ++ ms).map AnsField.label) l) = ms.map (fun m => valueOf D.engine w (P.fpk views) m G) := by
    intro l hl
    obtain ⟨k, G, h1, h2, h3, -, h5⟩ := htab.sound l hl
    obtain ⟨e1, e2⟩ := sub_key ha (vs := ms.map (fun m => valueOf D.engine w (P.fpk views) m G)) h1 (by simp)
    exact ⟨k, G, h1, h2, h3, h5, by rw [h5, e1], by rw [h5, e2]⟩
  have hkeys : (db h).map (keyOf d.src h) = lines.map (List.take ds.length) := by
    rw [hdb, List.map_map]
    refine List.map_congr_left fun l hl => ?_
    obtain ⟨k, G, h1, -, -, h4, h5, -⟩ := hline l hl
    simp only [Function.comp_def]
    rw [h5, h4, ← h1, List.take_left]
  have hpres : ∀ k, PresentIn d.src db k h ↔ Occurs P w D views q ds k := by
    intro k
    constructor
    · rintro ⟨t, ht, hk⟩
      rw [hdb] at ht
      obtain ⟨l, hl, rfl⟩ := List.mem_map.mp ht
      obtain ⟨k', G, h1, h2, h3, h4, h5, -⟩ := hline l hl
      rw [h5] at hk
      subst hk
      exact behind_of_nonempty h3 h2
    · rintro ⟨r, hr, hp, hk⟩
      obtain ⟨G, hG, hmem⟩ := htab.complete r hr hp
      have hl := hmem trivial
      refine ⟨_, by rw [hdb]; exact List.mem_map.mpr ⟨_, hl, rfl⟩, ?_⟩
      rw [(sub_key ha (by simp) (by simp)).1, hk]
  refine ⟨hqv, hkeys ▸ htab.once, hpres, ?_, ?_⟩
  · intro hnn t ht v hv
    rw [hdb] at ht
    obtain ⟨l, hl, rfl⟩ := List.mem_map.mp ht
    obtain ⟨k', G, h1, h2, h3, h4, h5, -⟩ := hline l hl
    rw [h5] at hv
    obtain ⟨r, hr, hp, rfl⟩ := behind_of_nonempty h3 h2
    obtain ⟨f, hf, rfl⟩ := List.mem_map.mp hv
    exact hnn r hr hp f hf
  · intro m hmm k
    have hmet : dictGet d.metrics h = some (ms.map AnsField.label) := by
      rcases ha.metrics with e | ⟨-, e⟩
      · exact e
      · rw [e] at hmm
        cases hmm
    have hfind := metric_find hm (dictGet_mem hmet) (c := m.label) (List.mem_map.mpr ⟨m, hmm, rfl⟩)
    have hval : metricAt d db k m.label = ((db h).find? (fun t => keyOf d.src h t = k.map some)).bind (fun t => t m.label) := by
      unfold metricAt
      rw [hfind]
    cases hf : (db h).find? (fun t => decide (keyOf d.src h t = k.map some)) with
    | none =>
      refine ⟨[], ⟨fun _ => false, fun r hr => ?_, by simp⟩, fun _ => by rw [hval, hf]; rfl, by simp⟩
      simp only [Bool.false_eq_true, false_iff, not_and]
      intro hp hk
      obtain ⟨t, ht, hk'⟩ := (hpres k).mpr ⟨r, hr, hp, hk⟩
      have := List.find?_eq_none.mp hf t ht
      simp [hk'] at this
    | some t =>
      have ht := List.mem_of_find?_eq_some hf
      have hk := List.find?_some hf
      rw [decide_eq_true_eq] at hk
      rw [hdb] at ht
      obtain ⟨l, hl, rfl⟩ := List.mem_map.mp ht
      obtain ⟨k', G, h1, h2, h3, h4, h5, h6⟩ := hline l hl
      rw [h5] at hk
      subst hk
      refine ⟨G, h3, fun e => absurd e h2, fun _ => ?_⟩
      rw [hval, hf]
      rw [List.map_map] at h6
      exact (List.map_inj_left.mp h6) m hmm

/-- C60 (i): a merged query in terms of the rows of the warehouse. When every sub-query is answered by the warehouse: the answer has exactly
one line for each combination of dimension values that occurs on a row of some sub-query and whose metrics pass the filters; it shows the
combination, each metric's aggregate over exactly the rows with these values that pass the filters of its sub-query (NULL if there are
none) and each merged metric computed from these. Missing as in `C60_lines_partial`: NULL dimension values, and combinations that occur in
two later sub-queries but not in the first. -/
theorem C60_rows_partial (P : AnsProject) (w : Warehouse) (D : Db ρ) (views : String → List String) (q : String → Question)
    (ds ms : String → List AnsField) (get : String → List Char → Res SMetric) (lookup : String → Res SMetric) (depth : ℕ)
    (pieces : SMetric → List Piece) (hget : ∀ v m g, get v m = .ok g → OrdinaryMetric pieces g) (d : MergedDef)
    (hm : ∀ m ∈ d.merged, OrdinaryMetric pieces m) (s : MStmt) (hs : mergedStatement get lookup depth d = .ok s)
    (db : String → List (MRow ℚ)) (hsub : ∀ h ∈ d.src.hashes, AnswersSub P w D d db h (views h) (q h) (ds h) (ms h))
    (n : ℕ) (hn : 0 < n) (hdn : d.src.hashes.Nodup) (hlist : ∀ h ∈ d.src.hashes, ∃ l, dictGet d.src.dims h = some l ∧ l.length = n)
    (hnull : ∀ h ∈ d.src.hashes, NoNulls P w D (views h) (q h) (ds h))
    (h₀ : String) (rest : List String) (hh : d.src.hashes = h₀ :: rest)
    (hsh : ∀ k, ¬ Occurs P w D (views h₀) (q h₀) (ds h₀) k → ∀ h ∈ rest, ∀ h' ∈ rest, Occurs P w D (views h) (q h) (ds h) k →
      Occurs P w D (views h') (q h') (ds h') k → h = h')
    (hd : DimensionsMatch d.src) (ha : MetricsApart d) (hma : MergedApart d) (W : MWarehouse ℚ)
    (hnames : ∀ m ∈ d.merged, ∀ t, formulaText get pieces depth m = some t → ∀ c ∈ W.names t, ∃ p ∈ d.metrics, c ∈ p.2)
    (hwf : WellFormedFilters d.having) (hon : OnMetrics (fun i => (lookup (d.fieldOf i)).map SMetric.column) d)
    (hz : d.limit ≠ some 0 ∨ d.src.warehouse ≠ .sqlServer ∧ d.src.warehouse ≠ .azureSynapse)
    (out : List (List Val)) (hans : s.Answers W db out) :
    ∃ (ks : List (List ℚ)) (line : List ℚ → List Val) (lines : List (List Val)), ks.Nodup ∧
      (∀ k, k ∈ ks ↔ (∃ h ∈ d.src.hashes, Occurs P w D (views h) (q h) (ds h) k) ∧
        PassesFilters W (formulaText get pieces depth) (fun i => (lookup (d.fieldOf i)).map SMetric.column) d db k) ∧
      (∀ k ∈ ks, List.Forall₂ (Shows W (formulaText get pieces depth) d db k) (s.select.map (·.2)) (line k)) ∧
      (∀ h ∈ d.src.hashes, ∀ m ∈ ms h, ∀ k, MetricFor P w D (views h) (q h) (ds h) m k (metricAt d db k m.label)) ∧
      lines.Perm (ks.map line) ∧ LimitedTo d.limit lines out := by
  have hne : ∀ h ∈ d.src.hashes, ds h ≠ [] := by
    intro h hhm e
    obtain ⟨l, hl, hln⟩ := hlist h hhm
    have := (hsub h hhm).dimensions
    rw [e] at this
    unfold dimsOf at this
    rw [hl] at this
    simp only [Option.getD_some, List.map_nil, List.map_eq_nil_iff] at this
    rw [this] at hln
    simp at hln
    omega
  have hall := fun h hhm => C60_sub P w D d db h (views h) (q h) (ds h) (ms h) (hsub h hhm) (hne h hhm) ha
  have hg : Grouped d.src db n :=
    ⟨hn, hdn, hlist, fun h hhm => (hall h hhm).2.2.2.1 (hnull h hhm), fun h hhm => (hall h hhm).2.1⟩
  have hmem : ∀ h ∈ rest, h ∈ d.src.hashes := fun h hr => by rw [hh]; exact List.mem_cons_of_mem _ hr
  have h0 : h₀ ∈ d.src.hashes := by rw [hh]; exact List.mem_cons_self
  obtain ⟨ks, line, lines, h1, h2, h3, h4, h5⟩ := C60_lines_partial get lookup depth pieces hget d hm s hs db n hg h₀ rest hh
    (fun k hk h hr h' hr' hp hp' => hsh k (fun ho => hk (((hall h₀ h0).2.2.1 k).mpr ho)) h hr h' hr'
      (((hall h (hmem h hr)).2.2.1 k).mp hp) (((hall h' (hmem h' hr')).2.2.1 k).mp hp')) hd ha hma W hnames hwf hon hz out hans
  refine ⟨ks, line, lines, h1, fun k => ?_, h3, fun h hhm => (hall h hhm).2.2.2.2, h4, h5⟩
  rw [h2 k]
  constructor
  · rintro ⟨⟨h, hhm, hp⟩, hf⟩
    exact ⟨⟨h, hhm, ((hall h hhm).2.2.1 k).mp hp⟩, hf⟩
  · rintro ⟨⟨h, hhm, hp⟩, hf⟩
    exact ⟨⟨h, hhm, ((hall h hhm).2.2.1 k).mpr hp⟩, hf⟩

/-- C60 (j): a sub-query that can be written is answered, on every database. -/
theorem C60_sub_answered (P : AnsProject) (w : Warehouse) (D : Db ρ) (metrics dimensions : List String) (wheres : List FObj)
    (names : List String) (fields : Nat → String) (force : Bool) (s : Stmt)
    (hs : buildStmt P w (subQuestion metrics dimensions wheres names fields force) = .ok s) (ds ms : List AnsField)
    (hp : Proper P (subQuestion metrics dimensions wheres names fields force) ds ms)
    (hl : ((ds ++ ms).map AnsField.label).Nodup) (hn : "__DEFAULT__" ∉ metrics ++ dimensions) : ∃ out, s.Answers D out := by
  refine C55_answered P w _ s hs ds ms hp rfl hl (fun _ => ⟨by simp [subQuestion], fun o ho => ?_⟩) D
  have hm : o.1 ∈ dimensions ++ metrics := by
    cases metrics with
    | cons m l =>
      simp only [askedOrder, subQuestion, defaultAsked] at ho
      split at ho
      · rw [List.mem_singleton] at ho
        subst ho
        simp
      · cases ho
    | nil =>
      cases dimensions with
      | cons m l =>
        simp only [askedOrder, subQuestion, defaultAsked] at ho
        split at ho
        · rw [List.mem_singleton] at ho
          subst ho
          simp
        · cases ho
      | nil =>
        simp only [askedOrder, subQuestion, defaultAsked] at ho
        cases ho
  refine ⟨fun e => hn ?_, o.1, hm, rfl⟩
  rw [← e]
  simp only [List.mem_append] at hm ⊢
  exact hm.symm

/-- C60 (k): without dimensions. When every sub-query is answered by the warehouse, the merged query has one line, with each metric over all
rows that pass the filters of its sub-query (also when there are none) and the merged metrics computed from these; and no line if the
filters on metrics are not true of them. -/
theorem C60_rows_total (P : AnsProject) (w : Warehouse) (D : Db ρ) (views : String → List String) (q : String → Question)
    (ms : String → List AnsField) (get : String → List Char → Res SMetric) (lookup : String → Res SMetric) (depth : ℕ)
    (pieces : SMetric → List Piece) (hget : ∀ v m g, get v m = .ok g → OrdinaryMetric pieces g) (d : MergedDef)
    (hm : ∀ m ∈ d.merged, OrdinaryMetric pieces m) (s : MStmt) (hs : mergedStatement get lookup depth d = .ok s)
    (db : String → List (MRow ℚ)) (hsub : ∀ h ∈ d.src.hashes, AnswersSub P w D d db h (views h) (q h) [] (ms h))
    (hn : ∀ p ∈ d.src.dims, p.2 = []) (hne : d.src.hashes ≠ []) (hdn : d.src.hashes.Nodup)
    (ha : MetricsApart d) (hma : MergedApart d) (W : MWarehouse ℚ)
    (hnames : ∀ m ∈ d.merged, ∀ t, formulaText get pieces depth m = some t → ∀ c ∈ W.names t, ∃ p ∈ d.metrics, c ∈ p.2)
    (hwf : WellFormedFilters d.having) (hon : OnMetrics (fun i => (lookup (d.fieldOf i)).map SMetric.column) d) (hz : d.limit = none)
    (out : List (List Val)) (hans : s.Answers W db out) :
    (∀ h ∈ d.src.hashes, QueryViews P (q h) (views h) ∧ ∃ p : ρ → Bool, (∀ r, p r = true ↔ PassesWhere D P w (views h) (q h) r) ∧
      ∀ m ∈ ms h, metricAt d db [] m.label = valueOf D.engine w (P.fpk (views h)) m ((D.rows (views h)).filter p)) ∧
    (PassesFilters W (formulaText get pieces depth) (fun i => (lookup (d.fieldOf i)).map SMetric.column) d db [] →
      ∃ line, out = [line] ∧ List.Forall₂ (Shows W (formulaText get pieces depth) d db []) (s.select.map (·.2)) line) ∧
    (¬ PassesFilters W (formulaText get pieces depth) (fun i => (lookup (d.fieldOf i)).map SMetric.column) d db [] → out = []) := by
  have hone : ∀ h, h ∈ d.src.hashes → ∃ r : MRow ℚ, db h = [r] ∧ QueryViews P (q h) (views h) ∧ ∃ p : ρ → Bool,
      (∀ r, p r = true ↔ PassesWhere D P w (views h) (q h) r) ∧
      ∀ m ∈ ms h, r m.label = valueOf D.engine w (P.fpk (views h)) m ((D.rows (views h)).filter p) := by
    intro h hh
    have hsb := hsub h hh
    obtain ⟨st, o, hst, hv, han, hdb⟩ := hsb.answer
    obtain ⟨names, fields, force, hq⟩ := hsb.asked
    have hgf : (q h).groupFilters = [] := by rw [hq]; rfl
    have hhv : (q h).havings = [] := by rw [hq]; rfl
    have hlm : (q h).limit ≠ some 0 := by rw [hq]; simp [subQuestion]
    obtain ⟨views', hqv, hb, hba⟩ := stmt_answers hst hgf D han
    have e2 : views' = views h := by
      obtain ⟨c, fs, -, -, -, -, h2, -⟩ := buildBlock_ok hb
      rw [← h2, hv]
    subst e2
    obtain ⟨p, h1, h2, -⟩ := block_total hb hsb.proper hlm D hba
    have ho := h2 (by
      intro v hvm
      rw [hhv] at hvm
      simp [meanings] at hvm)
    refine ⟨_, by rw [hdb, ho]; rfl, hqv, p, h1, fun m hmm => ?_⟩
    have hnv := named_values hsb.labels (line := (ms h).map (fun m => valueOf D.engine w (P.fpk (views h)) m ((D.rows (views h)).filter p)))
      (by simp)
    rw [List.nil_append, List.map_map] at hnv
    exact (List.map_inj_left.mp hnv) m hmm
  choose! r hr using hone
  have hkey : ∀ h (t : MRow ℚ), keyOf d.src h t = [] := by
    intro h t
    unfold keyOf dimsOf
    cases hg : dictGet d.src.dims h with
    | none => rfl
    | some l => rw [show l = [] from hn _ (dictGet_mem hg)]; rfl
  refine ⟨fun h hh => ?_, C60_no_dimensions get lookup depth pieces hget d hm s hs db hn hne hdn r (fun h hh => (hr h hh).1) ha hma W hnames
    hwf hon hz out hans⟩
  obtain ⟨hdb, hqv, p, hp, hv⟩ := hr h hh
  refine ⟨hqv, p, hp, fun m hmm => ?_⟩
  have hmet : dictGet d.metrics h = some ((ms h).map AnsField.label) := by
    rcases (hsub h hh).metrics with e | ⟨-, e⟩
    · exact e
    · rw [e] at hmm
      cases hmm
  rw [← hv m hmm]
  unfold metricAt
  rw [metric_find ha (dictGet_mem hmet) (c := m.label) (List.mem_map.mpr ⟨m, hmm, rfl⟩)]
  simp only
  rw [hdb]
  simp [hkey]

end

/-! #### A case that meets the hypotheses -/

/-- Orders and visits, each with a region; their metrics are the amount of the orders and the minutes of the visits. -/
def subTable : List (String × AnsField) :=
  [("orders.region", ⟨"orders", "region", false, .dimension "orders.region"⟩),
   ("orders.revenue", ⟨"orders", "revenue", false,
     .measure { type := .sum, sql := "orders.amount", pk := some ("orders.id", "orders.id"), distinctKey := "orders.id" }⟩),
   ("visits.region", ⟨"visits", "region", false, .dimension "visits.region"⟩),
   ("visits.minutes", ⟨"visits", "minutes", false,
     .measure { type := .sum, sql := "visits.length", pk := some ("visits.id", "visits.id"), distinctKey := "visits.id" }⟩)]

/-- Each FROM has the key of its only view; there are no access filters. -/
def subP : AnsProject := ⟨ansGet subTable, fun vs => .key ((vs.headD "") ++ ".id"), fun _ => []⟩

/-- The dimension and the metric of each sub-query. -/
def subDim (v : String) : AnsField := ⟨v, "region", false, .dimension (v ++ ".region")⟩
def subMetric (v : String) : AnsField :=
  if v = "orders" then ⟨"orders", "revenue", false,
     .measure { type := .sum, sql := "orders.amount", pk := some ("orders.id", "orders.id"), distinctKey := "orders.id" }⟩
  else ⟨"visits", "minutes", false,
     .measure { type := .sum, sql := "visits.length", pk := some ("visits.id", "visits.id"), distinctKey := "visits.id" }⟩

/-- The sub-queries: visits only of more than 3 minutes (comparison 0). -/
def subQ (v : String) : Question :=
  if v = "orders" then subQuestion ["orders.revenue"] ["orders.region"] [] [] (fun _ => "visits.region") false
  else subQuestion ["visits.minutes"] ["visits.region"] [.leaf { field := some "visits.region", first := 0 }] ["visits.region"]
    (fun _ => "visits.region") false

/-- Rows are region and amount; orders in the regions 1 and 2, visits in 2 and 3. -/
def subDb : Db (ℕ × ℕ) where
  rows := fun vs => if vs = ["orders"] then [(1, 10), (2, 5), (2, 7)] else [(2, 4), (3, 1), (3, 2)]
  tables := fun vs => vs
  engine := ⟨fun r s => if s = "orders.region" ∨ s = "visits.region" then some (r.1 : ℚ)
    else if s = "orders.amount" ∨ s = "visits.length" then some (r.2 : ℚ) else none, fun _ => 0⟩
  test := fun _ v => match v with
    | none => .u
    | some x => if x < 4 then .t else .f

/-- The merged query of the two, by region. -/
def subTwo : MergedDef where
  src := { warehouse := .snowflake, hashes := ["orders", "visits"],
           dims := [("orders", [⟨"orders", "region", none, false, "number"⟩]), ("visits", [⟨"visits", "region", none, false, "number"⟩])],
           mapping := fun k => if k = "orders.region" then [⟨"visits", "visits.region"⟩]
             else if k = "visits.region" then [⟨"orders", "orders.region"⟩] else [] }
  metrics := [("orders", ["orders_revenue"]), ("visits", ["visits_minutes"])]
  merged := []
  having := []
  fieldOf := fun _ => ""
  limit := none

theorem subQ_proper (v : String) (hv : v = "orders" ∨ v = "visits") : Proper subP (subQ v) [subDim v] [subMetric v] := by
  rcases hv with rfl | rfl
  · exact ⟨.cons (by decide +kernel) .nil, .cons (by decide +kernel) .nil, by simp [subDim], by simp [subMetric], trivial, trivial⟩
  · exact ⟨.cons (by decide +kernel) .nil, .cons (by decide +kernel) .nil, by simp [subDim], by simp [subMetric], ⟨trivial, trivial⟩, trivial⟩

/-- The statements of both sub-queries can be written and are answered: there are tables that are their answers. -/
theorem subTwo_answered : ∃ db : String → List (MRow ℚ), ∀ h ∈ subTwo.src.hashes,
    AnswersSub subP .snowflake subDb subTwo db h [h] (subQ h) [subDim h] [subMetric h] := by
  have hall : ∀ h, h = "orders" ∨ h = "visits" → ∃ out s, buildStmt subP .snowflake (subQ h) = .ok s ∧ s.block.views = [h] ∧
      s.Answers subDb out := by
    intro h hh
    have hb : ∃ s, buildStmt subP .snowflake (subQ h) = .ok s ∧ s.block.views = [h] := by
      have : (match buildStmt subP .snowflake (subQ h) with | .ok s => decide (s.block.views = [h]) | .error _ => false) = true := by
        rcases hh with rfl | rfl <;> decide +kernel
      cases hx : buildStmt subP .snowflake (subQ h) with
      | error e => rw [hx] at this; cases this
      | ok s => rw [hx] at this; exact ⟨s, rfl, of_decide_eq_true this⟩
    obtain ⟨s, hs, hv⟩ := hb
    have hp := subQ_proper h hh
    rcases hh with rfl | rfl
    · obtain ⟨out, ho⟩ := C60_sub_answered subP .snowflake subDb _ _ _ _ _ _ s hs _ _ hp (by decide +kernel) (by decide)
      exact ⟨out, s, hs, hv, ho⟩
    · obtain ⟨out, ho⟩ := C60_sub_answered subP .snowflake subDb _ _ _ _ _ _ s hs _ _ hp (by decide +kernel) (by decide)
      exact ⟨out, s, hs, hv, ho⟩
  choose! out hall using hall
  refine ⟨fun h => (out h).map (namedRow (([subDim h] ++ [subMetric h]).map AnsField.label)), fun h hh => ?_⟩
  have hh : h = "orders" ∨ h = "visits" := by simpa [subTwo] using hh
  obtain ⟨s, h1, h2, h3⟩ := hall h hh
  refine ⟨?_, subQ_proper h hh, ?_, ?_, ?_, ?_, s, out h, h1, h2, h3, rfl⟩
  · rcases hh with rfl | rfl <;> exact ⟨_, _, _, rfl⟩
  · refine .inr ?_
    intro m hm d hd hpk
    rw [List.mem_singleton] at hd
    subst hd
    cases hpk
  · rcases hh with rfl | rfl <;> decide +kernel
  · rcases hh with rfl | rfl <;> decide +kernel
  · rcases hh with rfl | rfl <;> exact .inl (by decide +kernel)

/-- The combination of region 2 occurs in both sub-queries. -/
example : Occurs subP .snowflake subDb ["orders"] (subQ "orders") [subDim "orders"] [2] ∧
    Occurs subP .snowflake subDb ["visits"] (subQ "visits") [subDim "visits"] [2] := by
  refine ⟨⟨(2, 5), by decide +kernel, ⟨by simp [subP], by simp [subQ, subQuestion, meanings]⟩, by decide +kernel⟩,
    ⟨(2, 4), by decide +kernel, ⟨by simp [subP], ?_⟩, by decide +kernel⟩⟩
  intro v hv
  have : meanings (compared subDb subP .snowflake (subP.fpk ["visits"]) (subQ "visits").fieldOf [(2, 4)]) (subQ "visits").wheres = [.t] := by
    decide +kernel
  rw [this] at hv
  simpa using hv

/-- No row has a NULL region. -/
example (v : String) (hv : v = "orders" ∨ v = "visits") : NoNulls subP .snowflake subDb [v] (subQ v) [subDim v] := by
  intro r _ _ f hf
  rw [List.mem_singleton] at hf
  subst hf
  rcases hv with rfl | rfl <;> simp [subDim, valueOf, subDb]

example : MetricsApart subTwo :=
  ⟨by decide +kernel, by decide +kernel, by
    intro p hp q hq c hc hc'
    simp only [subTwo, List.mem_cons, List.not_mem_nil, or_false] at hp hq
    rcases hp with rfl | rfl <;> rcases hq with rfl | rfl <;> simp_all, by decide +kernel⟩

example : DimensionsMatch subTwo.src := by
  refine ⟨by decide +kernel, by decide +kernel, ?_, by decide +kernel⟩
  intro h hh i f hf
  refine .inr ?_
  simp only [subTwo, List.mem_cons, List.not_mem_nil, or_false] at hh
  have hi : i = 0 := by
    rcases hh with rfl | rfl <;>
      (cases i with
       | zero => rfl
       | succ i => simp [dimsOf, subTwo, dictGet] at hf)
  subst hi
  rcases hh with rfl | rfl <;>
    (simp only [dimsOf, subTwo, dictGet] at hf
     simp at hf
     subst hf
     refine ⟨by decide +kernel, by decide +kernel, by decide +kernel, by decide +kernel, ?_⟩
     intro m hm
     simp [MDim.key, subTwo] at hm
     subst hm
     exact ⟨_, rfl, by decide +kernel, by decide +kernel, by decide +kernel⟩)

example : (mergedStatement (fun _ _ => .error .accessDenied) (fun _ => .error .accessDenied) 1 subTwo).map (fun s => s.select.map (·.2)) =
    .ok ["orders_revenue", "visits_minutes", "orders_region", "visits_region"] := by decide +kernel

end ML
